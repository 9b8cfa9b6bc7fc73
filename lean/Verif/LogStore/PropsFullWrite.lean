import Verif.LogStore.FullWrite
import Verif.LogStore.PropsFull
import Verif.LogStore.PropsCrash

/-!
# An overwriting that fails leaves the log as it was (C115)
-/

namespace Cs.LogStore
open Cs Cs.Buffer

/-! ## Specification -/

/-- Some call fails that ends `write_at` before the memory of the store is changed: a write, or a cut of one of the files. A flush of the data
file that fails makes the cut of this file fail. -/
def FullW.Early (w : FullW) (cut : Prop) : Prop :=
  w.idxPut ≠ none ∨ w.datPut ≠ none ∨ (w.idxFlush = none ∧ cut ∧ (w.idxTrunc = true ∨ w.datTrunc = true ∨ w.datFlush ≠ none))

/-- A failure that is noticed only at the end of `write_at`. -/
def FullW.Late (w : FullW) (cut : Prop) : Prop :=
  w.idxPut = none ∧ w.datPut = none ∧ (w.idxFlush ≠ none ∨ (w.datFlush ≠ none ∧ ¬ cut))

/-! ## Proofs -/

/-- `write_at` from its first write on. -/
def writeTail (w : FullW) (i start p : Nat) (e : Ent) : M Store Unit := do
  onIdx (putW w.idxPut w.idxFlush (le8 (BitVec.ofNat 64 p)))
  onDat (putW w.datPut w.datFlush e.bytes)
  onIdx (flushW w.idxFlush)
  onDat (flushW w.datFlush)
  truncIfLongerW w
  modify fun t => { t with cache := (if i - start + 1 ≤ t.count then t.cache.trim i else t.cache).append e, count := i - start + 1 }
  checkIO

/-- `write_at` up to its first write. -/
theorem writeAtF_start {l : Log} {ip dp sp f bs i : Nat} (w : FullW) (e : Ent) {A B : List Ent} {x : Ent} (hAB : l.ents = A ++ x :: B)
    (hA : A.length = i - l.start) (hi : l.start ≤ i) (hfit : l.Fits) (he : e.data.length + 9 < 2 ^ 31) :
    writeAtF w i e (repStore l l.ents ip dp sp f bs) = writeTail w i l.start (dataSize A) e
      ⟨⟨idxBytes 0 (A ++ x :: B), 8 * A.length, false⟩, ⟨datBytes (A ++ x :: B), dataSize A, false⟩,
        ⟨le8 (BitVec.ofNat 64 l.start), sp, false⟩, (A ++ x :: B).length, l.start, ⟨f, l.ents.drop (f - l.start), bs⟩, bs⟩ := by
  obtain ⟨hf1, hf2, hf3⟩ := hfit
  have hs : dataSize l.ents = dataSize A + dataSize (x :: B) := by rw [hAB, dataSize_append]
  have hl : l.ents.length = A.length + (B.length + 1) := by rw [hAB]; simp
  have hcnt := count_le_dataSize l.ents
  rw [writeAtF, bget]
  simp only [repStore]
  rw [if_neg (by omega)]
  obtain ⟨_, s', hr, p, rfl⟩ := writePos_ok (A := A) (B := x :: B) (ip := ip) (dp := dp) (s0 := l.start)
    (st := ⟨le8 (BitVec.ofNat 64 l.start), sp, false⟩) (ca := ⟨f, l.ents.drop (f - l.start), bs⟩) (bs := bs) (by omega)
  rw [← hAB, hA] at hr
  rw [run_bind_ok hr, bIdx (sk (by omega)), bDat tl, serialize_ok e (by omega)]
  rw [← hA, hAB, show (A.length + 1 - 1) * 8 = 8 * A.length by omega, writeTail, ← hA]
  rfl

theorem overwrite_same {a q r : List Byte} {p : Nat} (hp : p = a.length) (k : Nat) : overwrite (a ++ (q ++ r)) p (q.take k) = a ++ (q ++ r) := by
  rw [overwrite_at hp, List.append_assoc]
  congr 1
  have h3 : q.take k = (q ++ r).take (q.take k).length := by
    rw [List.take_append_of_le_length (by rw [List.length_take]; omega), List.length_take, Nat.min_comm, ← List.take_take,
      List.take_of_length_le (i := List.length _) (by rw [List.length_take]; omega)]
  conv => lhs; lhs; rw [h3]
  rw [List.take_append_drop]

/-- The position of the entry is in the index file already. -/
theorem idx_same {A B : List Ent} {x : Ent} (k : Nat) :
    overwrite (idxBytes 0 (A ++ x :: B)) (8 * A.length) ((le8 (BitVec.ofNat 64 (dataSize A))).take k) = idxBytes 0 (A ++ x :: B) := by
  rw [idx_at (es := A ++ x :: B) (A := A) (B := B) (e := x) rfl]
  exact overwrite_same (by simp) k

theorem keptW_take (fl : Option Nat) (bs : List Byte) : ∃ k, keptW fl bs = bs.take k := by
  cases fl with
  | none => exact ⟨bs.length, (List.take_of_length_le (Nat.le_refl _)).symm⟩
  | some k => exact ⟨k, rfl⟩

theorem putW_some {k : Nat} {fl : Option Nat} {bs b : List Byte} {p : Nat} :
    putW (some k) fl bs ⟨b, p, false⟩ = (.error .thrown, ⟨overwrite b p (bs.take k), p + (bs.take k).length, true⟩) := rfl

theorem putW_none {fl : Option Nat} {bs b : List Byte} {p : Nat} :
    putW none fl bs ⟨b, p, false⟩ = (.ok (), ⟨overwrite b p (keptW fl bs), p + bs.length, false⟩) := rfl

theorem flushW_eq {fl : Option Nat} {b : List Byte} {p : Nat} : flushW fl ⟨b, p, false⟩ = (.ok (), ⟨b, p, fl.isSome⟩) := by
  cases fl <;> rfl

/-- `write_at` whose writes have not thrown, up to the cut of the files. -/
theorem writeTail_puts {i start sp f bs0 c : Nat} {C : List Ent} {st : File} {e : Ent} {A B : List Ent} {x : Ent} (fi fd : Option Nat) (ti td : Bool) :
    writeTail ⟨none, none, fi, fd, ti, td⟩ i start (dataSize A) e
      ⟨⟨idxBytes 0 (A ++ x :: B), 8 * A.length, false⟩, ⟨datBytes (A ++ x :: B), dataSize A, false⟩, st, c, start, ⟨f, C, sp⟩, bs0⟩ =
    (truncIfLongerW ⟨none, none, fi, fd, ti, td⟩ >>= fun _ =>
      modify (fun t => { t with cache := (if i - start + 1 ≤ t.count then t.cache.trim i else t.cache).append e, count := i - start + 1 }) >>= fun _ =>
      checkIO)
      ⟨⟨idxBytes 0 (A ++ x :: B), 8 * A.length + 8, fi.isSome⟩,
        ⟨datBytes A ++ keptW fd e.bytes ++ (datBytes (x :: B)).drop (keptW fd e.bytes).length, dataSize A + e.bytes.length, fd.isSome⟩,
        st, c, start, ⟨f, C, sp⟩, bs0⟩ := by
  obtain ⟨k, hk⟩ := keptW_take fi (le8 (BitVec.ofNat 64 (dataSize A)))
  unfold writeTail
  rw [bIdx putW_none, hk, idx_same, bDat putW_none, bIdx flushW_eq, bDat flushW_eq, datBytes_append, overwrite_at (by simp)]
  rfl

theorem bIdxClose {k : Unit → M Store Unit} {b : List Byte} {p c s0 bs : Nat} {x : Bool} {d st : File} {ca : Cache} :
    (onIdx closeW >>= k) ⟨⟨b, p, x⟩, d, st, c, s0, ca, bs⟩ = k () ⟨⟨b, p, true⟩, d, st, c, s0, ca, bs⟩ := bIdx rfl

theorem bDatClose {k : Unit → M Store Unit} {b : List Byte} {p c s0 bs : Nat} {x : Bool} {i st : File} {ca : Cache} :
    (onDat closeW >>= k) ⟨i, ⟨b, p, x⟩, st, c, s0, ca, bs⟩ = k () ⟨i, ⟨b, p, true⟩, st, c, s0, ca, bs⟩ := bDat rfl

theorem truncW_err {t : Bool} {n : Nat} {f : File} (h : t = true ∨ 2 ^ 63 ≤ n) : truncW t n f = (.error .thrown, f) := by
  unfold truncW; rw [if_pos h]

theorem truncW_ok {n : Nat} {b l1 l2 : List Byte} {p : Nat} {x : Bool} (hb : b = l1 ++ l2) (hn : n = l1.length) (h : n < 2 ^ 63) :
    truncW false n ⟨b, p, x⟩ = (.ok (), ⟨l1, p, x⟩) := by
  unfold truncW
  rw [if_neg (by simp; omega)]
  subst hb hn
  simp

/-- The cut of the files, if it is needed and fails. -/
theorem cut_fails {w : FullW} {st : File} {c s0 bs dp : Nat} {ca : Cache} {A B : List Ent} {x : Ent} {D : List Byte} {dbad : Bool}
    (hB : B ≠ []) (hA : A.length < 2 ^ 32) (hw : w.idxTrunc = true ∨ w.datTrunc = true ∨ dbad = true) :
    ∃ ib ip, truncIfLongerW w ⟨⟨idxBytes 0 (A ++ x :: B), 8 * A.length + 8, false⟩, ⟨D, dp, dbad⟩, st, c, s0, ca, bs⟩ =
      (.error .thrown, ⟨⟨ib, ip, true⟩, ⟨D, dp, true⟩, st, c, s0, ca, bs⟩) ∧
      (w.idxTrunc = true → ib = idxBytes 0 (A ++ x :: B)) ∧ (w.idxTrunc = false → ib = idxBytes 0 (A ++ [x])) := by
  have hBl : 0 < B.length := List.length_pos_iff.mpr hB
  have hlen : (idxBytes 0 (A ++ x :: B)).length = 8 * (A.length + (B.length + 1)) := by simp
  have ht : tell (⟨D, dp, dbad⟩ : File) = (.ok (if dbad then 2 ^ 64 - 1 else dp), ⟨D, dp, dbad⟩) := by cases dbad <;> rfl
  have hsplit : idxBytes 0 (A ++ x :: B) = idxBytes 0 (A ++ [x]) ++ idxBytes (dataSize A + (9 + x.data.length)) B := by
    rw [idxBytes_append, idxBytes_append]; simp
  unfold truncIfLongerW
  rw [bDat ht, bIdx tl, bIdx se, bIdx tl, if_pos (by omega), bIdxClose, bDatClose]
  cases hi : w.idxTrunc with
  | true =>
    rw [eIdx (truncW_err (.inl rfl))]
    exact ⟨_, _, rfl, fun _ => rfl, fun h => (by cases h)⟩
  | false =>
    rw [bIdx (truncW_ok hsplit (by simp; omega) (by omega)), eDat (truncW_err ?_)]
    · exact ⟨_, _, rfl, (fun h => (by cases h)), fun _ => rfl⟩
    · rcases hw with h | h | h
      · rw [hi] at h; cases h
      · exact .inl h
      · subst h; right; show 2 ^ 63 ≤ 2 ^ 64 - 1; decide

/-- The cut of the files when nothing fails. -/
theorem cut_works {b d : List Byte} {p q c s0 bs : Nat} {st : File} {ca : Cache} (hp : p < 2 ^ 63) (hq : q < 2 ^ 63) :
    truncIfLongerW {} ⟨⟨b, p, false⟩, ⟨d, q, false⟩, st, c, s0, ca, bs⟩ = truncIfLonger ⟨⟨b, p, false⟩, ⟨d, q, false⟩, st, c, s0, ca, bs⟩ := by
  have ht : ∀ (n : Nat) (f : File), n < 2 ^ 63 → truncW false n f = (.ok (), { f with bytes := f.bytes.take n ++ List.replicate (n - f.bytes.length) 0 }) := by
    intro n f h
    unfold truncW
    rw [if_neg (by simp; omega)]
  unfold truncIfLongerW truncIfLonger
  rw [bDat tl, bIdx tl, bIdx se, bIdx tl, bDat tl, bIdx tl, bIdx se, bIdx tl]
  by_cases h : p < b.length
  · rw [if_pos h, if_pos h, bIdxClose, bDatClose, bIdx (ht _ _ hp), bDat (ht _ _ hq)]
    rfl
  · rw [if_neg h, if_neg h]

/-- If no call fails, this is `write_at` of `Verif/LogStore/Model.lean`. -/
theorem writeAtF_none {s : Store} {l : Log} (h : Reach s l) (i : Nat) (e : Ent) (hi : l.start ≤ i) (hn : i < l.next)
    (hf : (l.replaceFrom i [e]).Fits) : writeAtF {} i e s = writeAt i e s := by
  have hr := h.rep
  have hfit := hr.fits
  obtain ⟨A, x, B, hAB, hA, hA', hB⟩ := ents_split hi hn
  obtain ⟨hf1, hf2, hf3⟩ := hfit
  have he : dataSize A + (9 + e.data.length) < 2 ^ 31 := by
    have := hf.1
    simpa only [Log.replaceFrom, hA', dataSize_append, dataSize_cons, dataSize_nil, Nat.add_zero] using this
  have hs : dataSize l.ents = dataSize A + dataSize (x :: B) := by rw [hAB, dataSize_append]
  have hl : l.ents.length = A.length + (B.length + 1) := by rw [hAB]; simp
  have hcnt := count_le_dataSize l.ents
  have hel := e.bytes_length
  obtain ⟨ip, dp, sp, f, bs, rfl, -, -, -, -⟩ := hr.parts
  rw [writeAtF_start {} e hAB hA hi ⟨hf1, hf2, hf3⟩ (by omega), writeTail_puts none none false false, writeAt, bget]
  simp only [repStore]
  rw [if_neg (by omega)]
  obtain ⟨_, s', hp, p, rfl⟩ := writePos_ok (A := A) (B := x :: B) (ip := ip) (dp := dp) (s0 := l.start)
    (st := ⟨le8 (BitVec.ofNat 64 l.start), sp, false⟩) (ca := ⟨f, l.ents.drop (f - l.start), bs⟩) (bs := bs) (by omega)
  rw [← hAB, hA] at hp
  rw [run_bind_ok hp, bIdx (sk (by omega)), bDat tl, bIdx wrt, serialize_ok e (by omega), blift, bDat wrt]
  have hsame := idx_same (A := A) (B := B) (x := x) 8
  rw [List.take_of_length_le (by simp)] at hsame
  rw [← hA, show (A.length + 1 - 1) * 8 = 8 * A.length by omega, hAB, hsame, datBytes_append, overwrite_at (by simp)]
  rw [run_bind, run_bind]
  rw [show (none : Option Nat).isSome = false from rfl]
  rw [cut_works (by omega) (by omega)]
  rfl

/-- C115, `_partial`: if a write ends the call, or the files cannot be cut off, the call ends by an exception and the store goes on showing the
log as it was, as far as it is in the cache, and takes no further entry. Missing: failures that are noticed at the end only
(`failed_write_seen`) and what is in the files (`failed_write_files`, `failed_write_forges`). -/
theorem failed_write_unseen_partial {s : Store} {l : Log} (h : Reach s l) (i : Nat) (e : Ent) (hi : l.start ≤ i) (hn : i < l.next)
    (hf : (l.replaceFrom i [e]).Fits) {w : FullW} (hw : w.Early (i + 1 < l.next)) :
    ∃ s', writeAtF w i e s = (.error .thrown, s') ∧ ShowsFrom s' l s.cache.first ∧ ∀ e', ∃ f, (append e' s').1 = .error f := by
  have hr := h.rep
  have hm := hr.mem
  have hfit := hr.fits
  obtain ⟨A, x, B, hAB, hA, hA', hB⟩ := ents_split hi hn
  have he : e.data.length + 9 < 2 ^ 31 := by
    have := hf.1
    simp only [Log.replaceFrom, dataSize_append, dataSize_cons, dataSize_nil] at this
    omega
  obtain ⟨ip, dp, sp, f, bs, rfl, -, -, -, -⟩ := hr.parts
  rw [writeAtF_start w e hAB hA hi hfit he]
  have hcnt : (A ++ x :: B).length = l.ents.length := by rw [hAB]
  have hshow : ∀ I D st, ShowsFrom ⟨I, D, st, (A ++ x :: B).length, l.start, ⟨f, l.ents.drop (f - l.start), bs⟩, bs⟩ l f := fun I D st =>
    Mem.shows (s := ⟨I, D, st, (A ++ x :: B).length, l.start, ⟨f, l.ents.drop (f - l.start), bs⟩, bs⟩)
      ⟨hcnt, rfl, hm.first, rfl, hm.nonempty⟩
  obtain ⟨w1, w2, w3, w4, w5, w6⟩ := w
  cases w1 with
  | some k =>
    unfold writeTail
    rw [eIdx putW_some]
    exact ⟨_, rfl, hshow _ _ _, fun e' => append_stuck e' (.inr rfl)⟩
  | none =>
    cases w2 with
    | some k =>
      unfold writeTail
      rw [bIdx putW_none, eDat putW_some]
      exact ⟨_, rfl, hshow _ _ _, fun e' => append_stuck e' (.inl rfl)⟩
    | none =>
      obtain ⟨h3, hcut, hw'⟩ := (hw.resolve_left (fun x => x rfl)).resolve_left (fun x => x rfl)
      simp only at h3 hw'
      subst h3
      have hBn : B ≠ [] := by
        rintro rfl
        simp only [Log.next, hAB, List.length_append, List.length_cons, List.length_nil] at hcut
        omega
      have hAl : A.length < 2 ^ 32 := by
        have h1 := count_le_dataSize A
        have h2 := hfit.1
        rw [hAB, dataSize_append] at h2
        omega
      obtain ⟨ib, ipos, hc, -⟩ := cut_fails (w := ⟨none, none, none, w4, w5, w6⟩) (st := ⟨le8 (BitVec.ofNat 64 l.start), sp, false⟩)
        (c := (A ++ x :: B).length) (s0 := l.start) (bs := bs) (dp := dataSize A + e.bytes.length) (ca := ⟨f, l.ents.drop (f - l.start), bs⟩)
        (A := A) (B := B) (x := x) (D := datBytes A ++ keptW w4 e.bytes ++ (datBytes (x :: B)).drop (keptW w4 e.bytes).length)
        (dbad := w4.isSome) hBn hAl (by
          rcases hw' with h | h | h
          · exact .inl h
          · exact .inr (.inl h)
          · exact .inr (.inr (Option.isSome_iff_ne_none.mpr h)))
      rw [writeTail_puts]
      rw [show (none : Option Nat).isSome = false from rfl, run_bind_err hc]
      exact ⟨_, rfl, hshow _ _ _, fun e' => append_stuck e' (.inr rfl)⟩

/-- Without a cut the streams stay as they are. -/
theorem no_cut {w : FullW} {st : File} {c s0 bs dp : Nat} {ca : Cache} {A B : List Ent} {x : Ent} {D : List Byte} {ibad dbad : Bool}
    (h : ibad = true ∨ B = []) :
    ∃ ip, truncIfLongerW w ⟨⟨idxBytes 0 (A ++ x :: B), 8 * A.length + 8, ibad⟩, ⟨D, dp, dbad⟩, st, c, s0, ca, bs⟩ =
      (.ok (), ⟨⟨idxBytes 0 (A ++ x :: B), ip, ibad⟩, ⟨D, dp, dbad⟩, st, c, s0, ca, bs⟩) := by
  have ht : tell (⟨D, dp, dbad⟩ : File) = (.ok (if dbad then 2 ^ 64 - 1 else dp), ⟨D, dp, dbad⟩) := by cases dbad <;> rfl
  unfold truncIfLongerW
  cases ibad with
  | true =>
    have h1 : ∀ b p, tell (⟨b, p, true⟩ : File) = (.ok (2 ^ 64 - 1), ⟨b, p, true⟩) := fun _ _ => rfl
    have h2 : ∀ b p, seekEnd (⟨b, p, true⟩ : File) = (.ok (), ⟨b, p, true⟩) := fun _ _ => rfl
    rw [bDat ht, bIdx (h1 _ _), bIdx (h2 _ _), bIdx (h1 _ _), if_neg (Nat.lt_irrefl _)]
    exact ⟨_, rfl⟩
  | false =>
    have hB : B = [] := h.resolve_left (by simp)
    subst hB
    rw [bDat ht, bIdx tl, bIdx se, bIdx tl, if_neg (by simp; omega)]
    exact ⟨_, rfl⟩

/-- C115 is false: if the failure is noticed by a flush and nothing was to be cut off, or the index file is the one, the call ends by an
exception, but the store shows the log after the call. -/
theorem failed_write_seen {s : Store} {l : Log} (h : Reach s l) (i : Nat) (e : Ent) (hi : l.start ≤ i) (hn : i < l.next)
    (hc : s.cache.first ≤ i) (hf : (l.replaceFrom i [e]).Fits) {w : FullW} (hw : w.Late (i + 1 < l.next)) :
    ∃ s' first, writeAtF w i e s = (.error .thrown, s') ∧ first ≤ i ∧ ShowsFrom s' (l.replaceFrom i [e]) first ∧
      (∀ e', ∃ f, (append e' s').1 = .error f) ∧
      s'.disk = ⟨s.disk.idx, (l.ents.take (i - l.start)).flatMap Ent.bytes ++ keptW w.datFlush e.bytes ++
        ((l.ents.drop (i - l.start)).flatMap Ent.bytes).drop (keptW w.datFlush e.bytes).length, s.disk.sti⟩ := by
  have hr := h.rep
  have hfit := hr.fits
  obtain ⟨A, x, B, hAB, hA, hA', hB⟩ := ents_split hi hn
  have he : e.data.length + 9 < 2 ^ 31 := by
    have := hf.1
    simp only [Log.replaceFrom, dataSize_append, dataSize_cons, dataSize_nil] at this
    omega
  obtain ⟨ip, dp, sp, f, bs, rfl, hwin, hb, -, -⟩ := hr.parts
  rw [writeAtF_start w e hAB hA hi hfit he]
  obtain ⟨w1, w2, w3, w4, w5, w6⟩ := w
  obtain ⟨e1, e2, h3⟩ := hw
  simp only at e1 e2 h3
  subst e1 e2
  have hcond : w3.isSome = true ∨ B = [] := by
    rcases h3 with h | ⟨-, h⟩
    · exact .inl (Option.isSome_iff_ne_none.mpr h)
    · right
      rw [← List.length_eq_zero_iff]
      simp only [Log.next, hAB, List.length_append, List.length_cons] at h
      omega
  obtain ⟨ip', ht⟩ := no_cut (w := ⟨none, none, w3, w4, w5, w6⟩) (st := ⟨le8 (BitVec.ofNat 64 l.start), sp, false⟩)
    (c := (A ++ x :: B).length) (s0 := l.start) (bs := bs) (dp := dataSize A + e.bytes.length) (ca := ⟨f, l.ents.drop (f - l.start), bs⟩)
    (A := A) (B := B) (x := x) (D := datBytes A ++ keptW w4 e.bytes ++ (datBytes (x :: B)).drop (keptW w4 e.bytes).length)
    (ibad := w3.isSome) (dbad := w4.isSome) hcond
  have hfi : f ≤ i := hc
  have h1 := hwin.1
  have hc0 : (if i - l.start + 1 ≤ (A ++ x :: B).length then Cache.trim ⟨f, l.ents.drop (f - l.start), bs⟩ i
      else ⟨f, l.ents.drop (f - l.start), bs⟩) = ⟨f, A.drop (f - l.start), bs⟩ := by
    rw [if_pos (by simp; omega), Cache.trim, if_neg (by simp; omega)]
    simp only [Cache.mk.injEq, true_and, and_true]
    rw [← hA', List.drop_take]; congr 1; omega
  have hfA : Log.Fits ⟨l.start, A ++ [e]⟩ := by rw [Log.replaceFrom, hA'] at hf; exact hf
  obtain ⟨f', g1, g2, -⟩ := cache_append_ok (l := ⟨l.start, A⟩) (C := A) e e rfl h1 (by simp only; omega)
    (by have := hwin.2.2.1; simp only [hAB, List.length_append, List.length_cons] at this ⊢; omega) hwin.2.2.2 hb hfA
  rw [writeTail_puts, run_bind_ok ht, bmod]
  simp only [hc0, g1]
  have hbad : w4.isSome = true ∨ w3.isSome = true := by
    rcases h3 with h | ⟨h, -⟩
    · exact .inr (Option.isSome_iff_ne_none.mpr h)
    · exact .inl (Option.isSome_iff_ne_none.mpr h)
  have hchk : ∀ t : Store, (t.dat.bad = true ∨ t.idx.bad = true) → checkIO t = (.error .thrown, t) := by
    intro t ht
    show (if t.dat.bad = true ∨ t.idx.bad = true then throw Fault.thrown else pure () : M Store Unit) t = _
    rw [if_pos ht]; rfl
  rw [hchk _ hbad]
  refine ⟨_, f', rfl, ?_, ?_, fun e' => append_stuck e' hbad, ?_⟩
  · rcases g2.2.1 with h2 | ⟨h2, h3⟩
    · simp only [List.length_append, List.length_cons, List.length_nil] at h2; omega
    · simp at h2
  · rw [Log.replaceFrom, hA']
    exact Mem.shows (l := ⟨l.start, A ++ [e]⟩) ⟨by simp; omega, rfl, g2.1, rfl, g2.2.1⟩
  · rw [hA', hB]
    show Disk.mk _ _ _ = _
    simp only [Store.disk, hAB]
    rfl

/-- The files after a `write_at` that has failed are those after a crash at some moment of it. -/
theorem failed_write_files {s : Store} {l : Log} (h : Reach s l) (i : Nat) (e : Ent) (hi : l.start ≤ i) (hn : i < l.next)
    (hf : (l.replaceFrom i [e]).Fits) (w : FullW) (n : Nat)
    (hw : (∃ k, w = { idxPut := some k } ∧ n = 0) ∨ (∃ k, k ≤ e.bytes.length ∧ w = { datPut := some k } ∧ n = 8 + k) ∨
      (i + 1 < l.next ∧ w = { idxTrunc := true } ∧ n = 8 + e.bytes.length) ∨
      (i + 1 < l.next ∧ w = { datTrunc := true } ∧ n = 8 + e.bytes.length + 1)) :
    (writeAtF w i e s).2.disk = (writeEffects s.disk (i - l.start) e).upTo n s.disk := by
  have hr := h.rep
  have hfit := hr.fits
  obtain ⟨A, x, B, hAB, hA, hA', hB⟩ := ents_split hi hn
  have he : e.data.length + 9 < 2 ^ 31 := by
    have := hf.1
    simp only [Log.replaceFrom, dataSize_append, dataSize_cons, dataSize_nil] at this
    omega
  have hs : dataSize l.ents = dataSize A + dataSize (x :: B) := by rw [hAB, dataSize_append]
  have hf1 := hfit.1
  have hAl : A.length < 2 ^ 32 := by have h1 := count_le_dataSize A; omega
  have hcut : i + 1 < l.next → B ≠ [] := by
    rintro hcut rfl
    simp only [Log.next, hAB, List.length_append, List.length_cons, List.length_nil] at hcut
    omega
  rw [hr.disk, hAB, ← hA, writeEffects_upTo e n (by omega)]
  obtain ⟨ip, dp, sp, f, bs, rfl, -, -, -, -⟩ := hr.parts
  rw [writeAtF_start w e hAB hA hi hfit he]
  rcases hw with ⟨k, rfl, rfl⟩ | ⟨k, hk, rfl, rfl⟩ | ⟨hc, rfl, rfl⟩ | ⟨hc, rfl, rfl⟩
  · unfold writeTail
    rw [eIdx putW_some, idx_same, if_pos (.inl (by omega))]
    simp [Store.disk]
  · unfold writeTail
    rw [bIdx putW_none, eDat putW_some, if_pos (.inl (by omega)), Nat.add_sub_cancel_left]
    simp only [Store.disk, datBytes_append]
    rw [overwrite_at (by simp)]
    obtain ⟨k', hk'⟩ := keptW_take none (le8 (BitVec.ofNat 64 (dataSize A)))
    rw [hk', idx_same]
  · obtain ⟨ib, ipos, hcf, h5, -⟩ := cut_fails (w := { idxTrunc := true }) (st := ⟨le8 (BitVec.ofNat 64 l.start), sp, false⟩)
        (c := (A ++ x :: B).length) (s0 := l.start) (bs := bs) (dp := dataSize A + e.bytes.length) (ca := ⟨f, l.ents.drop (f - l.start), bs⟩)
        (A := A) (B := B) (x := x) (D := datBytes A ++ keptW none e.bytes ++ (datBytes (x :: B)).drop (keptW none e.bytes).length)
        (dbad := false) (hcut hc) hAl (.inl rfl)
    rw [writeTail_puts, show (none : Option Nat).isSome = false from rfl, run_bind_err hcf, if_pos (.inl (Nat.le_refl _)), Nat.add_sub_cancel_left, List.take_of_length_le (Nat.le_refl _), h5 rfl]
    rfl
  · obtain ⟨ib, ipos, hcf, -, h5⟩ := cut_fails (w := { datTrunc := true }) (st := ⟨le8 (BitVec.ofNat 64 l.start), sp, false⟩)
        (c := (A ++ x :: B).length) (s0 := l.start) (bs := bs) (dp := dataSize A + e.bytes.length) (ca := ⟨f, l.ents.drop (f - l.start), bs⟩)
        (A := A) (B := B) (x := x) (D := datBytes A ++ keptW none e.bytes ++ (datBytes (x :: B)).drop (keptW none e.bytes).length)
        (dbad := false) (hcut hc) hAl (.inr (.inl rfl))
    rw [writeTail_puts, show (none : Option Nat).isSome = false from rfl, run_bind_err hcf, if_neg (by rintro (h | h); omega; exact hcut hc h), if_pos rfl, h5 rfl]
    simp [Store.disk, keptW, idxBytes_append]

/-- C115, `_partial`: if not even the position can be written, the store shows the log as it was when it is opened again. -/
theorem failed_write_reopened_partial {s : Store} {l : Log} (h : Reach s l) (i : Nat) (e : Ent) (hi : l.start ≤ i) (hn : i < l.next)
    (hf : (l.replaceFrom i [e]).Fits) (k : Nat) (b : Int) (hb : b ≠ 0) :
    ∃ s', openOn (writeAtF { idxPut := some k } i e s).2.disk b = .ok s' ∧ Shows s' l := by
  rw [failed_write_files h i e hi hn hf _ 0 (.inl ⟨k, rfl, rfl⟩)]
  obtain ⟨s', l', g1, g2, -, -, -, g3, -⟩ := write_crash_partial h i e hi hn hf 0 b hb
  exact ⟨s', g1, g3 (by omega) ▸ g2⟩

/-- C115 is false for the files: if the index file cannot be cut off, the store shows the log as it was as long as it runs, and when it is
opened again it shows at `i + 1` an entry that the client has chosen and nobody has written there. -/
theorem failed_write_forges {s : Store} {l : Log} (h : Reach s l) (i : Nat) (hi : l.start ≤ i) (old x : Ent)
    (ho : l.get? (i + 1) = some old) (hx : x.data.length = old.data.length) (t : U64) (v : Byte) (b : Int) (hb : b ≠ 0) :
    ∃ e s1 s', e.term = t ∧ e.vtype = v ∧ (l.replaceFrom i [e]).Fits ∧ writeAtF { idxTrunc := true } i e s = (.error .thrown, s1) ∧
      ShowsFrom s1 l s.cache.first ∧ openOn s1.disk b = .ok s' ∧ (Op.run .nextSlot s').1 = .ok (.nat l.next) ∧
      (Op.run (.entryAt (i + 1)) s').1 = .ok (.ent (some x)) := by
  obtain ⟨e, s', h1, h2, h3, h4, h5, h6⟩ := crash_forges_at h i hi old x ho hx t v b hb
  have hn := (get?_some ho).2
  obtain ⟨s1, g1, g2, -⟩ := failed_write_unseen_partial h i e hi (by omega) h3 (w := { idxTrunc := true })
    (.inr (.inr ⟨rfl, hn, .inl rfl⟩))
  have hd := failed_write_files h i e hi (by omega) h3 _ _ (.inr (.inr (.inl ⟨hn, rfl, rfl⟩)))
  rw [g1] at hd
  exact ⟨e, s1, s', h1, h2, h3, g1, g2, by rw [hd]; exact h4, h5, h6⟩

/-- A store with three entries; the kinds of failures. -/
example : ∃ s, Reach s ⟨1, [e3, e3, e1]⟩ ∧ s.cache.first ≤ 3 ∧ (Log.replaceFrom ⟨1, [e3, e3, e1]⟩ 3 [e3]).Fits ∧
    (Log.replaceFrom ⟨1, [e3, e3, e1]⟩ 2 [e1]).Fits ∧
    ({ datFlush := some 4 } : FullW).Late (3 + 1 < Log.next ⟨1, [e3, e3, e1]⟩) ∧
    ({ datFlush := some 4 } : FullW).Early (2 + 1 < Log.next ⟨1, [e3, e3, e1]⟩) ∧
    Log.get? ⟨1, [e3, e3, e1]⟩ (2 + 1) = some e1 := by
  obtain ⟨s, h, hf⟩ := reach_three
  exact ⟨s, h, by omega, ⟨by decide, by decide, by decide⟩, ⟨by decide, by decide, by decide⟩,
    ⟨rfl, rfl, .inr ⟨(fun x => (by cases x)), by decide⟩⟩, .inr (.inr ⟨rfl, by decide, .inr (.inr (fun x => (by cases x)))⟩), rfl⟩

end Cs.LogStore
