import Verif.LogStore.Props
import Verif.Codec.Props

/-!
# The entries of the log store are those of the buffer level model

`Ent.bytes`, `serialize` and `decode` of the store model agree with `log_entry::serialize` and `log_entry::deserialize`
as modelled on buffers.
-/

namespace Cs.LogStore
open Cs Cs.Buffer Cs.Codec

/-- What the store keeps of a log entry with payload buffer `b0`. -/
def Ent.of (e : Codec.LogEntry) (b0 : Buf) : Ent := ⟨e.term, e.vtype, b0.data⟩

/-- The bytes written for an entry are those of `log_entry::serialize`. -/
theorem link_serialize (junk : Byte) (e : Codec.LogEntry) (b0 : Buf) (he : e.buff = some b0) (hb : Buffer.Reach b0)
    (h : 9 + b0.data.length < 2 ^ 31) :
    ∃ b, e.serialize junk = .ok b ∧ b.pos = 0 ∧ serialize (Ent.of e b0) = .ok b.data := by
  obtain ⟨b, h1, h2⟩ := Codec.LogEntry.serialize_ok junk e b0 he hb h
  refine ⟨b, h1, (Rd.posz h2).1, ?_⟩
  rw [serialize_ok _ (by simp only [Ent.of]; omega), At.data h2]
  rfl

/-- The entry read from a block of bytes is the one `log_entry::deserialize` makes of a buffer with these bytes. -/
theorem link_decode (junk : Byte) (r : Buf) (bs : List Byte) (h : At r bs 0) :
    match decode bs with
    | .ok x => ∃ e r' b, Codec.LogEntry.deserialize junk r = (.ok e, r') ∧ e.buff = some b ∧ b.pos = 0 ∧ Ent.of e b = x
    | .error f => ∃ r', Codec.LogEntry.deserialize junk r = (.error f, r') := by
  rw [decode]
  by_cases hl : bs.length < 9
  · rw [if_pos hl]
    by_cases h8 : bs.length < 8
    · exact ⟨r, by rw [Codec.LogEntry.deserialize, run_bind_err (getULong_short h (by omega))]⟩
    · exact ⟨r.mvFw 8, by rw [Codec.LogEntry.deserialize, run_bind_ok (getULong_ok h (by omega)),
          run_bind_err (getByte_short (At.mvFw h (by omega)) (by omega))]⟩
  · rw [if_neg hl]
    have a1 := At.mvFw h (k := 8) (by omega)
    have a2 := At.mvFw a1 (k := 1) (by omega)
    have hr : Rd ((r.mvFw 8).mvFw 1) (bs.take 9) (bs.drop 9) := by
      rw [Rd, List.take_append_drop, List.length_take, Nat.min_eq_left (by omega)]; exact a2
    obtain ⟨b, h3, w3⟩ := Rd.copy junk hr
    refine ⟨{ term := dec8 (bs.take 8), vtype := (bs.drop 8).getD 0 0, buff := some b }, (r.mvFw 8).mvFw 1, b, ?_, rfl, (Rd.posz w3).1, ?_⟩
    · rw [Codec.LogEntry.deserialize, run_bind_ok (getULong_ok h (by omega)), run_bind_ok (getByte_ok a1 (by omega)),
        run_bind_ok (run_get _), h3, run_bind_ok (run_liftExcept_ok _ _)]
      rfl
    · rw [Ent.of, At.data w3]
      simp [List.getD_eq_getElem?_getD]

example : ∃ (r : Buf) (x : Ent), At r (Ent.bytes ⟨5, 1, [7]⟩) 0 ∧ decode (Ent.bytes ⟨5, 1, [7]⟩) = .ok x := by
  obtain ⟨b0, h1, h2, h3⟩ := alloc_hdr 0 (n := (Ent.bytes ⟨5, 1, [7]⟩).length) (by decide)
  exact ⟨{ b0 with data := Ent.bytes ⟨5, 1, [7]⟩ }, _, ⟨h2.withData rfl, rfl⟩, decode_bytes _⟩

end Cs.LogStore
