import Verif.Buffer.Props
import Verif.Buffer.IO

/-!
# Copies of buffers, and buffers on streams (C108)
-/

namespace Cs.Buffer
open Cs

/-- Write these buffers one after the other. -/
def putAllTo : List Buf → M OStream Unit
  | [] => pure ()
  | b :: bs => do putTo b; putAllTo bs

/-- Fill these buffers one after the other. -/
def getAllFrom : List Buf → M IStream (List Buf)
  | [] => pure []
  | b :: bs => do
    let c ← getFrom b
    let cs ← getAllFrom bs
    pure (c :: cs)

/-! ## Copies -/

/-- C108: a copy is a buffer of its own that has the remaining bytes of the source, all still to be read. -/
theorem copy_has_rest (junk : Byte) (src : Buf) (h : Reach src) :
    ∃ c, copy junk src = .ok c ∧ Reach c ∧ c.content = src.content ∧ c.pos = 0 ∧ c.size = src.content.length := by
  obtain ⟨d, p, ha⟩ := h.at
  have hle := ha.le
  have hrd : Rd src (d.take p) (d.drop p) := by
    have : (d.take p).length = p := by rw [List.length_take]; omega
    rw [Rd, List.take_append_drop, this]; exact ha
  obtain ⟨c, h1, h2⟩ := hrd.copy junk
  have h3 : At c (d.drop p) 0 := h2
  exact ⟨c, h1, h3.reach, by rw [content_at h3, content_at ha]; rfl, h3.pos, by rw [h3.size, content_at ha]⟩

/-! ## Streams -/

theorem putTo_run {b : Buf} {d : List Byte} {p : Nat} (h : At b d p) (o : OStream) :
    putTo b o = if o.good = false then (.error .thrown, o)
      else if (d.drop p).length ≤ o.room then (.ok (), o.write (d.drop p)) else (.error .thrown, o.write (d.drop p)) := by
  have hle := h.le
  have e : (b.data.drop b.pos).take b.avail = d.drop p := by
    rw [h.data, h.pos, h.avail, List.take_of_length_le (by rw [List.length_drop]; exact Nat.le_refl _)]
  have e2 : b.pos + b.avail ≤ b.data.length := by rw [h.data, h.pos, h.avail]; omega
  unfold putTo
  rw [e, run_bind_ok (run_get o), run_ite]
  by_cases hg : o.good = false
  · rw [if_pos hg, if_pos hg]
    rfl
  · rw [if_neg hg, if_neg hg, run_ite, if_pos e2, run_bind_ok (run_set ..), run_ite]
    have hg' : o.good = true := by simpa using hg
    by_cases hr : (d.drop p).length ≤ o.room
    · have : (o.write (d.drop p)).good = true := by unfold OStream.write; rw [if_pos hr]; exact hg'
      rw [if_pos hr, if_neg (by rw [this]; intro h; cases h)]
      rfl
    · have : (o.write (d.drop p)).good = false := by unfold OStream.write; rw [if_neg hr]
      rw [if_neg hr, if_pos this]
      rfl

theorem availInt_at {b : Buf} {d : List Byte} {p : Nat} (h : At b d p) : b.availInt.toNat = d.length - p := by
  have := h.hdr.hn
  unfold Buf.availInt
  rw [h.avail, BitVec.toInt_eq_toNat_of_lt]
  · rw [BitVec.toNat_ofNat]; omega
  · rw [BitVec.toNat_ofNat]; omega

theorem getFrom_run {b : Buf} {d : List Byte} {p : Nat} (h : At b d p) (i : IStream) :
    getFrom b i = if i.good = false then (.error .thrown, i)
      else if d.length - p ≤ i.rest.length then
        (.ok { b with data := d.take p ++ i.rest.take (d.length - p) }, { i with rest := i.rest.drop (d.length - p) })
      else (.error .thrown, { rest := [], good := false }) := by
  have hle := h.le
  have e2 : b.pos + min (d.length - p) i.rest.length ≤ b.data.length := by rw [h.data, h.pos]; omega
  unfold getFrom
  rw [availInt_at h, run_bind_ok (run_get i), run_ite]
  by_cases hg : i.good = false
  · rw [if_pos hg, if_pos hg]
    rfl
  · rw [if_neg hg, if_neg hg, run_ite, if_neg (by omega), run_ite]
    by_cases hr : d.length - p ≤ i.rest.length
    · rw [if_pos hr, if_pos hr, run_bind_ok (run_set ..)]
      have : splice b.data b.pos (i.rest.take (d.length - p)) = d.take p ++ i.rest.take (d.length - p) := by
        have hl : (i.rest.take (d.length - p)).length = d.length - p := by rw [List.length_take]; omega
        rw [h.data, h.pos, splice, hl, List.drop_eq_nil_of_le (as := d) (by omega), List.append_nil]
      rw [this]
      rfl
    · rw [if_neg hr, if_neg hr, run_bind_ok (run_set ..)]
      rfl

/-- C108: writing a buffer to a stream writes exactly the bytes that remain to be read, or throws; never undefined behaviour. -/
theorem stream_put_exact (b : Buf) (h : Reach b) (o : OStream) :
    (putTo b o).1 = .ok () ∧ (putTo b o).2.written = o.written ++ b.content ∧ (putTo b o).2.good = o.good ∧ o.good = true ∨
    (putTo b o).1 = .error .thrown ∧ (o.good = false ∧ (putTo b o).2 = o ∨
      o.room < b.content.length ∧ (putTo b o).2.good = false) := by
  obtain ⟨d, p, ha⟩ := h.at
  rw [putTo_run ha, content_at ha]
  by_cases hg : o.good = false
  · rw [if_pos hg]; exact .inr ⟨rfl, .inl ⟨hg, rfl⟩⟩
  · rw [if_neg hg]
    by_cases hr : (d.drop p).length ≤ o.room
    · rw [if_pos hr]
      unfold OStream.write
      rw [if_pos hr]
      exact .inl ⟨rfl, rfl, rfl, by simpa using hg⟩
    · rw [if_neg hr]
      unfold OStream.write
      rw [if_neg hr]
      exact .inr ⟨rfl, .inr ⟨by omega, rfl⟩⟩

/-- C108: reading a buffer from a stream fills it from its position to its end with the next bytes of the stream, keeps size and position
and what is before the position; if the stream has fewer bytes it throws. Never undefined behaviour. -/
theorem stream_get_exact (b : Buf) (h : Reach b) (i : IStream) :
    (∃ c, (getFrom b i).1 = .ok c ∧ Reach c ∧ c.size = b.size ∧ c.pos = b.pos ∧ c.data.take b.pos = b.data.take b.pos ∧
      i.rest = c.content ++ (getFrom b i).2.rest ∧ (getFrom b i).2.good = true) ∨
    (getFrom b i).1 = .error .thrown ∧ (i.good = false ∨ i.rest.length < b.content.length) ∧ (getFrom b i).2.good = false := by
  obtain ⟨d, p, ha⟩ := h.at
  have hle := ha.le
  rw [getFrom_run ha, content_at ha]
  by_cases hg : i.good = false
  · rw [if_pos hg]; exact .inr ⟨rfl, .inl hg, hg⟩
  · rw [if_neg hg]
    by_cases hr : d.length - p ≤ i.rest.length
    · rw [if_pos hr]
      have htk : (d.take p).length = p := by rw [List.length_take]; omega
      have hc : At { b with data := d.take p ++ i.rest.take (d.length - p) } (d.take p ++ i.rest.take (d.length - p)) p :=
        ha.withData (by rw [List.length_append, htk, List.length_take]; omega)
      refine .inl ⟨_, rfl, hc.reach, ?_, ?_, ?_, ?_, by simpa using hg⟩
      · rw [hc.size, ha.size, List.length_append, htk, List.length_take]; omega
      · rw [hc.pos, ha.pos]
      · rw [hc.data, ha.pos, ha.data, List.take_left' htk]
      · rw [content_at hc, List.drop_left' htk, List.take_append_drop]
    · rw [if_neg hr]
      exact .inr ⟨rfl, .inr (by rw [List.length_drop]; omega), rfl⟩

theorem putAllTo_run : ∀ (bs : List Buf) (_ : ∀ b ∈ bs, Reach b) (o : OStream), o.good = true →
    (bs.map fun b => b.content.length).sum ≤ o.room →
    ∃ o', putAllTo bs o = (.ok (), o') ∧ o'.written = o.written ++ (bs.map Buf.content).flatten := by
  intro bs
  induction bs with
  | nil => intro _ o _ _; exact ⟨o, rfl, by simp⟩
  | cons b bs ih =>
    intro hb o hg hr
    simp only [List.mem_cons, forall_eq_or_imp] at hb
    simp only [List.map_cons, List.sum_cons] at hr
    obtain ⟨d, p, ha⟩ := hb.1.at
    have h1 := putTo_run ha o
    rw [content_at ha] at hr
    rw [if_neg (by rw [hg]; intro h; cases h), if_pos (by omega)] at h1
    have hw : o.write (d.drop p) = { o with written := o.written ++ d.drop p, room := o.room - (d.drop p).length } := by
      unfold OStream.write; rw [if_pos (by omega)]
    rw [hw] at h1
    obtain ⟨o', h2, h3⟩ := ih hb.2 { o with written := o.written ++ d.drop p, room := o.room - (d.drop p).length } hg
      (by show _ ≤ o.room - (d.drop p).length; omega)
    refine ⟨o', by rw [putAllTo, run_bind_ok h1, h2], ?_⟩
    rw [h3, List.map_cons, List.flatten_cons, content_at ha, List.append_assoc]

theorem getAllFrom_run : ∀ (bs cs : List Buf) (_ : ∀ b ∈ bs, Reach b) (_ : ∀ c ∈ cs, Reach c)
    (_ : cs.map (fun c => c.content.length) = bs.map fun b => b.content.length) (tail : List Byte),
    ∃ rs, getAllFrom cs { rest := (bs.map Buf.content).flatten ++ tail } = (.ok rs, { rest := tail }) ∧
      rs.map Buf.content = bs.map Buf.content := by
  intro bs
  induction bs with
  | nil =>
    intro cs _ _ hl tail
    cases cs with
    | nil => exact ⟨[], rfl, rfl⟩
    | cons c cs => simp at hl
  | cons b bs ih =>
    intro cs hb hc hl tail
    cases cs with
    | nil => simp at hl
    | cons c cs =>
      simp only [List.mem_cons, forall_eq_or_imp] at hb hc
      simp only [List.map_cons, List.cons.injEq] at hl
      obtain ⟨d, p, ha⟩ := hc.1.at
      have hle := ha.le
      have hlen : b.content.length = d.length - p := by rw [← hl.1, content_at ha, List.length_drop]
      obtain ⟨rs, h2, h3⟩ := ih cs hb.2 hc.2 hl.2 tail
      have h1 := getFrom_run ha { rest := ((b :: bs).map Buf.content).flatten ++ tail }
      rw [if_neg (by intro h; cases h), if_pos (by
        simp only [List.map_cons, List.flatten_cons, List.length_append]; omega)] at h1
      simp only [List.map_cons, List.flatten_cons, List.append_assoc] at h1
      rw [List.take_left' hlen, List.drop_left' hlen] at h1
      have htk : (d.take p).length = p := by rw [List.length_take]; omega
      have hc : At { c with data := d.take p ++ b.content } (d.take p ++ b.content) p :=
        ha.withData (by rw [List.length_append, htk]; omega)
      refine ⟨{ c with data := d.take p ++ b.content } :: rs, ?_, ?_⟩
      · rw [getAllFrom, List.map_cons, List.flatten_cons, List.append_assoc, run_bind_ok h1, run_bind_ok h2]
        rfl
      · rw [List.map_cons, List.map_cons, h3, content_at hc, List.drop_left' htk]

/-- C108: buffers written to a stream one after the other are read back exactly, into buffers with as much space. -/
theorem stream_round_trip (bs cs : List Buf) (hb : ∀ b ∈ bs, Reach b) (hc : ∀ c ∈ cs, Reach c)
    (hl : cs.map (fun c => c.content.length) = bs.map fun b => b.content.length) (room : Nat)
    (hr : (bs.map fun b => b.content.length).sum ≤ room) (tail : List Byte) :
    ∃ o rs, putAllTo bs { room := room } = (.ok (), o) ∧
      getAllFrom cs { rest := o.written ++ tail } = (.ok rs, { rest := tail }) ∧ rs.map Buf.content = bs.map Buf.content := by
  obtain ⟨o, h1, h2⟩ := putAllTo_run bs hb { room := room } rfl hr
  obtain ⟨rs, h3, h4⟩ := getAllFrom_run bs cs hb hc hl tail
  exact ⟨o, rs, h1, by rw [h2]; exact h3, h4⟩

/-- A buffer of 3 bytes with the position at 1, and a small one. -/
def exBufs : List Buf :=
  [((Op.seek 1).call ((Op.putByte 9).call ((Op.putByte 8).call ((Op.putByte 7).call
      (match alloc 0 3 with | .ok b => b | .error _ => ⟨0, 0, []⟩)).2).2).2).2,
    (match alloc 5 1 with | .ok b => b | .error _ => ⟨0, 0, []⟩)]

example : (∀ b ∈ exBufs, Reach b) ∧ exBufs.map Buf.content = [[8, 9], [5]] ∧
    (exBufs.map fun b => b.content.length).sum ≤ 4 := by
  refine ⟨?_, by decide, by decide⟩
  intro b hb
  simp only [exBufs, List.mem_cons, List.not_mem_nil, or_false] at hb
  rcases hb with rfl | rfl
  · exact Reach.op _ (.seek 1) (Reach.op _ (.putByte 9) (Reach.op _ (.putByte 8) (Reach.op _ (.putByte 7) (Reach.alloc 0 3 _ rfl)
      (fun _ h => (by cases h))) (fun _ h => (by cases h))) (fun _ h => (by cases h))) (fun _ h => (by cases h))
  · exact Reach.alloc 5 1 _ rfl

/-- A stream that has too little: an exception, and the buffer is not given back. -/
example : (getFrom ((match alloc 0 3 with | .ok b => b | .error _ => ⟨0, 0, []⟩)) { rest := [1, 2] }).1 = .error .thrown := by decide

end Cs.Buffer
