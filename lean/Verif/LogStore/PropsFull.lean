import Verif.LogStore.Full
import Verif.LogStore.Props

/-!
# An append that fails leaves the log as it was (C111)
-/

namespace Cs.LogStore
open Cs Cs.Buffer

/-! ## Specification -/

/-- The disk is full: some call fails. -/
def Full.Fails (w : Full) : Prop := w ≠ {}

/-- A call fails that ends `append` at once. -/
def Full.AtPut (w : Full) : Prop := w.idxPut ≠ none ∨ w.datPut ≠ none

/-- What a store shows of the log `l` without its files: the indexes, the last entry, and the entries from index `first` on. -/
def ShowsFrom (s : Store) (l : Log) (first : Nat) : Prop :=
  (Op.run .nextSlot s).1 = .ok (.nat l.next) ∧ (Op.run .startIndex s).1 = .ok (.nat l.start) ∧
  (Op.run .lastEntry s).1 = .ok (.ent (some (l.ents.getLast?.getD ⟨0, 1, []⟩))) ∧
  ∀ i e, first ≤ i → l.get? i = some e →
    (Op.run (.entryAt i) s).1 = .ok (.ent (some e)) ∧ (Op.run (.termAt i) s).1 = .ok (.term e.term)

/-! ## Proofs -/

theorem appendF_none (e : Ent) (s : Store) : appendF {} e s = append e s := by
  unfold appendF append
  rfl

/-- A store whose memory has the log. -/
structure Mem (s : Store) (l : Log) : Prop where
  count : s.count = l.ents.length
  start : s.start = l.start
  first : l.start ≤ s.cache.first
  buf : s.cache.buf = l.ents.drop (s.cache.first - l.start)
  nonempty : s.cache.first - l.start < l.ents.length ∨ (l.ents = [] ∧ s.cache.first = l.start)

theorem Mem.shows {s : Store} {l : Log} (h : Mem s l) : ShowsFrom s l s.cache.first := by
  have hlast : s.cache.last = l.ents.getLast? := by
    unfold Cache.last
    rw [h.buf]
    rcases h.nonempty with h1 | ⟨h1, h2⟩
    · rw [List.getLast?_drop, if_neg (by omega)]
    · rw [h1, List.drop_nil]
  refine ⟨?_, ?_, ?_, fun i e hi he => ?_⟩
  · show Except.ok (Res.nat (s.start + s.count)) = _
    rw [h.count, h.start]; rfl
  · show Except.ok (Res.nat s.start) = _
    rw [h.start]
  · show Except.ok (Res.ent (some (s.cache.last.getD emptyEntry))) = _
    rw [hlast]; rfl
  · have hs : l.start ≤ i := Nat.le_trans h.first hi
    rw [get?_eq hs] at he
    have hat : s.cache.at i = some e := by
      unfold Cache.at
      rw [if_neg (by omega), h.buf, List.getElem?_drop, ← he]
      congr 1
      have := h.first
      omega
    have hlen : i - l.start < l.ents.length := by
      rcases Nat.lt_or_ge (i - l.start) l.ents.length with hl | hl
      · exact hl
      · rw [List.getElem?_eq_none hl] at he; cases he
    constructor
    · show (wrap Res.ent (entryAt i) s).1 = _
      have : entryAt i s = (.ok (some e), s) := by
        unfold entryAt
        rw [bget, hat]
        rfl
      unfold wrap
      rw [this]
    · show (wrap Res.term (termAt i) s).1 = _
      have : termAt i s = (.ok e.term, s) := by
        unfold termAt
        rw [bget, if_pos ⟨hi, by rw [h.buf, List.length_drop]; have := h.first; omega⟩, hat]
        rfl
      unfold wrap
      rw [this]

theorem Rep.mem {s : Store} {l : Log} (h : Rep s l l.ents) : Mem s l := ⟨h.count, h.start, h.first, h.cached, h.nonempty⟩

/-- The same memory. -/
theorem Mem.of {s s' : Store} {l : Log} (h : Mem s l) (h1 : s'.count = s.count) (h2 : s'.start = s.start) (h3 : s'.cache = s.cache) :
    Mem s' l := ⟨h1 ▸ h.count, h2 ▸ h.start, h3 ▸ h.first, h3 ▸ h.buf, h3 ▸ h.nonempty⟩

theorem putF_some {k : Nat} {bs b : List Byte} {p : Nat} :
    putF (some k) bs ⟨b, p, false⟩ = (.error .thrown, ⟨overwrite b p (bs.take k), p + (bs.take k).length, true⟩) := rfl

theorem putF_none {bs b : List Byte} {p : Nat} :
    putF none bs ⟨b, p, false⟩ = (.ok (), ⟨overwrite b p bs, p + bs.length, false⟩) := wrt

/-- C111, `_partial`: if the failure is noticed when the bytes are given to the streams, the call ends by an exception and the store goes
on showing the log as it was, as far as it is in the cache. Missing: failures that are noticed later (`failed_append_seen`) and what is in
the files (`failed_append_closes_store`). -/
theorem failed_append_unseen_partial {s : Store} {l : Log} (h : Reach s l) (e : Ent) (hf : Log.Fits ⟨l.start, l.ents ++ [e]⟩) {w : Full}
    (hw : w.AtPut) : ∃ s', appendF w e s = (.error .thrown, s') ∧ ShowsFrom s' l s.cache.first := by
  have hr := h.rep
  have hm := hr.mem
  have hf1 := hf.1
  simp only [dataSize_append, dataSize_cons, dataSize_nil] at hf1
  obtain ⟨ip, dp, sp, f, bs, rfl, -, -, -, -⟩ := hr.parts
  obtain ⟨w1, w2, w3, w4⟩ := w
  unfold appendF
  cases w1 with
  | some k =>
    rw [bIdx se, bDat se, bDat tl, eIdx putF_some]
    exact ⟨_, rfl, (hm.of (by rfl) (by rfl) (by rfl)).shows⟩
  | none =>
    cases w2 with
    | none => rcases hw with h | h <;> exact absurd rfl h
    | some k =>
      rw [bIdx se, bDat se, bDat tl, bIdx putF_none, serialize_ok e (by omega), blift, eDat putF_some]
      exact ⟨_, rfl, (hm.of (by rfl) (by rfl) (by rfl)).shows⟩

/-- What a flush keeps. -/
def kept (k : Option Nat) (bs : List Byte) : List Byte := match k with
  | none => bs
  | some k => bs.take k

theorem flushF_end {k : Option Nat} {b bs : List Byte} {p n : Nat} (hn : n = bs.length) :
    flushF k n ⟨b ++ bs, p, false⟩ = (.ok (), ⟨b ++ kept k bs, p, k.isSome⟩) := by
  subst hn
  cases k with
  | none => rfl
  | some k =>
    show (Except.ok (), (⟨(b ++ bs).take ((b ++ bs).length - (bs.length - k)), p, true⟩ : File)) = _
    rw [List.length_append, show b.length + bs.length - (bs.length - k) = b.length + (bs.length - (bs.length - k)) by omega,
      List.take_length_add_append]
    congr 3
    show _ = List.take k bs
    rcases Nat.le_total k bs.length with h | h
    · congr 1; omega
    · rw [List.take_of_length_le h, List.take_of_length_le (by omega)]

theorem checkIO_bad {s : Store} (h : s.dat.bad = true ∨ s.idx.bad = true) {k : Unit → M Store Nat} :
    (checkIO >>= k) s = (.error .thrown, s) := by
  have : checkIO s = (.error .thrown, s) := by
    show (if s.dat.bad = true ∨ s.idx.bad = true then throw Fault.thrown else pure () : M Store Unit) s = _
    rw [if_pos h]; rfl
  rw [run_bind_err this]

/-- Once a stream has failed no entry can be appended. -/
theorem append_stuck {s : Store} (e : Ent) (h : s.dat.bad = true ∨ s.idx.bad = true) : ∃ f, (append e s).1 = .error f := by
  by_cases hi : s.idx.bad = true
  · exact ⟨_, append_bad e hi⟩
  have hd : s.dat.bad = true := h.resolve_right hi
  obtain ⟨⟨ib, ip, ibad⟩, ⟨db, dp, dbad⟩, st, c, s0, ca, bs⟩ := s
  obtain rfl : dbad = true := hd
  obtain rfl : ibad = false := Bool.eq_false_iff.mpr hi
  have h2 : seekEnd (⟨db, dp, true⟩ : File) = (.ok (), ⟨db, dp, true⟩) := rfl
  have h3 : ∃ p, tell (⟨db, dp, true⟩ : File) = (.ok p, ⟨db, dp, true⟩) := ⟨_, rfl⟩
  obtain ⟨p, h3⟩ := h3
  have h4 : ∀ bs, write bs (⟨db, dp, true⟩ : File) = (.error .thrown, ⟨db, dp, true⟩) := fun bs => by
    rw [write, run_bind_ok (run_get _)]; rfl
  rw [append, bIdx se, bDat h2, bDat h3, bIdx wrt]
  cases hs : serialize e with
  | error f => exact ⟨f, by rw [run_bind_err (lift_err f _)]⟩
  | ok b => exact ⟨.thrown, by rw [blift, eDat (h4 _)]⟩

/-- C111 is false: if the failure is noticed by a flush, the call ends by an exception, but the store shows the log with the entry
(`next_slot` is one more, `last_entry` and `entry_at` and `term_at` give the entry), no entry can be appended after it, and the files have
only the bytes that got there. -/
theorem failed_append_seen {s : Store} {l : Log} (h : Reach s l) (e : Ent) (hf : Log.Fits ⟨l.start, l.ents ++ [e]⟩) {w : Full}
    (hw : w.Fails) (hp : ¬ w.AtPut) : ∃ s' first, appendF w e s = (.error .thrown, s') ∧ first ≤ l.next ∧
      ShowsFrom s' ⟨l.start, l.ents ++ [e]⟩ first ∧ (∀ e', ∃ f, (append e' s').1 = .error f) ∧
      s'.disk = ⟨s.disk.idx ++ kept w.idxFlush (le8 (BitVec.ofNat 64 s.disk.dat.length)), s.disk.dat ++ kept w.datFlush e.bytes, s.disk.sti⟩ := by
  have hr := h.rep
  have hf1 := hf.1
  simp only [dataSize_append, dataSize_cons, dataSize_nil] at hf1
  obtain ⟨ip, dp, sp, f, bs, rfl, hwin, hb, -, -⟩ := hr.parts
  obtain ⟨w1, w2, w3, w4⟩ := w
  have e1 : w1 = none := Classical.byContradiction fun x => hp (.inl x)
  have e2 : w2 = none := Classical.byContradiction fun x => hp (.inr x)
  subst e1 e2
  obtain ⟨f', hc, hwin', -⟩ := cache_append_ok (C := l.ents) e e rfl hwin.1 hwin.le hwin.2.2.1 hwin.2.2.2 hb hf
  unfold appendF
  rw [bIdx se, bDat se, bDat tl, bIdx putF_none, serialize_ok e (by omega), blift, bDat putF_none, bmod]
  simp only [repStore, overwrite_end]
  rw [bIdx (flushF_end (by simp)), bDat (flushF_end rfl), hc]
  have hbad : w4.isSome = true ∨ w3.isSome = true := by
    cases w3 <;> cases w4 <;> first | exact absurd rfl hw | exact .inl rfl | exact .inr rfl
  rw [checkIO_bad (by exact hbad)]
  refine ⟨_, f', rfl, ?_, ?_, fun e' => append_stuck e' hbad, ?_⟩
  · have := hwin'.2.1
    show f' ≤ l.start + l.ents.length
    rcases this with h1 | ⟨h1, h2⟩
    · simp only [List.length_append, List.length_cons, List.length_nil] at h1; omega
    · have h2 : f' = l.start := h2
      omega
  · exact Mem.shows (l := ⟨l.start, l.ents ++ [e]⟩) ⟨by simp, rfl, hwin'.1, rfl, hwin'.2.1⟩
  · rfl

/-- The files after an `append` that has failed at one of the two writes to the data file: the position of the entry and the first `k` bytes
of the entry. -/
theorem failed_append_disk {s : Store} {l : Log} (h : Reach s l) (e : Ent) (hf : Log.Fits ⟨l.start, l.ents ++ [e]⟩) (k : Nat) (w : Full)
    (hw : w = { datPut := some k } ∨ w = { datFlush := some k }) :
    (appendF w e s).2.disk = (appendEffects s.disk e).upTo (8 + k) s.disk := by
  rw [appendEffects_upTo, List.take_of_length_le (by simp), show 8 + k - 8 = k by omega]
  rcases hw with rfl | rfl
  · have hr := h.rep
    have hf1 := hf.1
    simp only [dataSize_append, dataSize_cons, dataSize_nil] at hf1
    obtain ⟨ip, dp, sp, f, bs, rfl, -, -, -, -⟩ := hr.parts
    unfold appendF
    rw [bIdx se, bDat se, bDat tl, bIdx putF_none, serialize_ok e (by omega), blift, eDat putF_some]
    simp only [overwrite_end]
    rfl
  · obtain ⟨s', _, h1, -, -, -, h2⟩ := failed_append_seen h e hf (w := { datFlush := some k }) (by intro x; cases x)
      (by rintro (x | x) <;> exact x rfl)
    rw [h1, h2]
    rfl

/-- C111 is false for the files: an append that fails to write the entry leaves its position in the index file. If fewer than nine bytes of
the entry have been written the store cannot be opened again; with more it is opened and shows an entry nobody has appended, with the
payload cut off. -/
theorem failed_append_reopened {s : Store} {l : Log} (h : Reach s l) (e : Ent) (hf : Log.Fits ⟨l.start, l.ents ++ [e]⟩) (k : Nat) (w : Full)
    (hw : w = { datPut := some k } ∨ w = { datFlush := some k }) (b : Int) (hb : b ≠ 0) :
    (k < 9 → openOn (appendF w e s).2.disk b = .error .thrown) ∧
    (9 ≤ k → ∃ s', openOn (appendF w e s).2.disk b = .ok s' ∧
      Shows s' ⟨l.start, l.ents ++ [{ e with data := e.data.take (k - 9) }]⟩) := by
  rw [failed_append_disk h e hf k w hw]
  obtain ⟨-, h2, h3⟩ := C21_crash_partial h e hf (8 + k) b hb
  exact ⟨fun hk => h2 (by omega) (by omega), fun hk => by have := h3 (by omega); rwa [show 8 + k - 17 = k - 9 by omega] at this⟩

/-- If nothing has been written the store shows the log as it was when it is opened again. So an entry it has shown after the failed call
(`failed_append_seen`) is gone. -/
theorem failed_append_nothing_written {s : Store} {l : Log} (h : Reach s l) (e : Ent) (hf : Log.Fits ⟨l.start, l.ents ++ [e]⟩) (w : Full)
    (hw : w = { idxPut := some 0 } ∨ w = { idxFlush := some 0, datFlush := some 0 }) (b : Int) (hb : b ≠ 0) :
    ∃ s', openOn (appendF w e s).2.disk b = .ok s' ∧ Shows s' l := by
  have hd : (appendF w e s).2.disk = (appendEffects s.disk e).upTo 0 s.disk := by
    rw [appendEffects_upTo, List.take_zero, List.take_zero, List.append_nil, List.append_nil]
    rcases hw with rfl | rfl
    · obtain ⟨ip, dp, sp, f, bs, rfl, -, -, -, -⟩ := h.rep.parts
      unfold appendF
      rw [bIdx se, bDat se, bDat tl, eIdx putF_some]
      simp only [List.take_zero, overwrite_end, List.append_nil]
      rfl
    · obtain ⟨s', _, h1, -, -, -, h2⟩ := failed_append_seen h e hf (w := { idxFlush := some 0, datFlush := some 0 }) (by intro x; cases x)
        (by rintro (x | x) <;> exact x rfl)
      rw [h1, h2]
      simp [kept]
  rw [hd]
  exact (C21_crash_partial h e hf 0 b hb).1 rfl

/-- A store with three entries: the disk is full when the fourth is flushed. -/
example : ∃ s, Reach s ⟨1, [e3, e3, e1]⟩ ∧ Log.Fits ⟨1, [e3, e3, e1] ++ [e3]⟩ ∧
    ({ datFlush := some 4 } : Full).Fails ∧ ¬ ({ datFlush := some 4 } : Full).AtPut ∧ ({ datPut := some 4 } : Full).AtPut := by
  obtain ⟨s, h, -⟩ := reach_three
  exact ⟨s, h, ⟨by decide, by decide, by decide⟩, (by intro x; cases x), (by rintro (x | x) <;> exact x rfl), .inr (by intro x; cases x)⟩

end Cs.LogStore
