import Verif.LogStore.Props

/-!
# A crash while an entry is overwritten (C114)

`write_at` (fs_log_store.cxx 299-367) writes the position of the entry, then the entry over the bytes of the old entries, and cuts off the
rest of the index file and then of the data file. A crash may happen between any two of these effects.
-/

namespace Cs.LogStore
open Cs Cs.Buffer

/-! ## Specification -/

/-- Bytes written one after the other from position `p` on. -/
def putBytes (put : Nat → Byte → Disk → Disk) : Nat → List Byte → Effects
  | _, [] => []
  | p, b :: bs => put p b :: putBytes put (p + 1) bs

/-- Where `write_at` writes the entry: the position in the index file, or the end of the data file for a new entry, lines 309-319. -/
def writePosition (d : Disk) (k : Nat) : Nat :=
  if 8 * k < d.idx.length then (dec8 ((d.idx.drop (8 * k)).take 8)).toNat else d.dat.length

/-- Effects of `write_at` on the `k`-th entry (the first is 0), fs_log_store.cxx 309-354: the position and the entry byte by byte (the index
file is flushed first, 329-330), then the two files are cut off if there are further positions. -/
def writeEffects (d : Disk) (k : Nat) (e : Ent) : Effects :=
  putBytes (fun p b d => { d with idx := overwrite d.idx p [b] }) (8 * k) (le8 (BitVec.ofNat 64 (writePosition d k))) ++
  putBytes (fun p b d => { d with dat := overwrite d.dat p [b] }) (writePosition d k) e.bytes ++
  if 8 * k + 8 < d.idx.length then
    [fun x => { x with idx := x.idx.take (8 * k + 8) }, fun x => { x with dat := x.dat.take (writePosition d k + e.bytes.length) }]
  else []

/-- `es'` is what the bytes `bs` are read as with the positions of the entries `es`. -/
def ReadAs (es : List Ent) (bs : List Byte) (es' : List Ent) : Prop := posns 0 es' = posns 0 es ∧ es'.flatMap Ent.bytes = bs

/-! ## Proofs -/

theorem overwrite_one {pre rest : List Byte} {p : Nat} (hp : p = pre.length) (b : Byte) :
    overwrite (pre ++ rest) p [b] = (pre ++ [b]) ++ rest.drop 1 := overwrite_at hp

theorem putBytes_idx (bs : List Byte) (d : Disk) (pre rest : List Byte) (p n : Nat) (hp : p = pre.length) (hd : d.idx = pre ++ rest) :
    ((putBytes (fun p b (d : Disk) => { d with idx := overwrite d.idx p [b] }) p bs).take n).foldl (fun d f => f d) d =
      { d with idx := pre ++ bs.take n ++ rest.drop (bs.take n).length } := by
  induction bs generalizing d pre rest p n with
  | nil => simp [putBytes, ← hd]
  | cons b bs ih =>
    cases n with
    | zero => simp [← hd]
    | succ n =>
      simp only [putBytes, List.take_succ_cons, List.foldl_cons]
      rw [ih _ (pre ++ [b]) (rest.drop 1) (p + 1) n (by simp [hp]) (by rw [hd]; exact overwrite_one hp b)]
      simp only [List.drop_drop, List.append_assoc, List.singleton_append, List.length_cons]
      rw [Nat.add_comm]

theorem putBytes_dat (bs : List Byte) (d : Disk) (pre rest : List Byte) (p n : Nat) (hp : p = pre.length) (hd : d.dat = pre ++ rest) :
    ((putBytes (fun p b (d : Disk) => { d with dat := overwrite d.dat p [b] }) p bs).take n).foldl (fun d f => f d) d =
      { d with dat := pre ++ bs.take n ++ rest.drop (bs.take n).length } := by
  induction bs generalizing d pre rest p n with
  | nil => simp [putBytes, ← hd]
  | cons b bs ih =>
    cases n with
    | zero => simp [← hd]
    | succ n =>
      simp only [putBytes, List.take_succ_cons, List.foldl_cons]
      rw [ih _ (pre ++ [b]) (rest.drop 1) (p + 1) n (by simp [hp]) (by rw [hd]; exact overwrite_one hp b)]
      simp only [List.drop_drop, List.append_assoc, List.singleton_append, List.length_cons]
      rw [Nat.add_comm]

theorem putBytes_length (put : Nat → Byte → Disk → Disk) (bs : List Byte) (p : Nat) : (putBytes put p bs).length = bs.length := by
  induction bs generalizing p with
  | nil => rfl
  | cons b bs ih => simp [putBytes, ih]

theorem digit_up {a x k : Nat} (ha : a < 256) : (a + 256 * x) / 2 ^ (k + 8) = x / 2 ^ k := by
  rw [Nat.pow_add, Nat.mul_comm (2 ^ k), ← Nat.div_div_eq_div_mul]
  congr 1
  show (a + 256 * x) / 256 = x
  omega

theorem digit_low {a x : Nat} (ha : a < 256) : (a + 256 * x) / 2 ^ 0 % 256 = a := by
  rw [Nat.pow_zero, Nat.div_one]; omega

theorem digit_top {a : Nat} (ha : a < 256) : a / 2 ^ 0 % 256 = a := by
  rw [Nat.pow_zero, Nat.div_one]; omega

/-- Eight bytes are the bytes of a number. -/
theorem le8_surj (bs : List Byte) (h : bs.length = 8) : ∃ v, le8 v = bs := by
  match bs, h with
  | [a, b, c, d, e, f, g, i], _ =>
    have ha : a.toNat < 256 := a.isLt
    have hb : b.toNat < 256 := b.isLt
    have hc : c.toNat < 256 := c.isLt
    have hd : d.toNat < 256 := d.isLt
    have he : e.toNat < 256 := e.isLt
    have hf : f.toNat < 256 := f.isLt
    have hg : g.toNat < 256 := g.isLt
    have hi : i.toNat < 256 := i.isLt
    obtain ⟨N, hN⟩ : ∃ N, N = a.toNat + 256 * (b.toNat + 256 * (c.toNat + 256 * (d.toNat + 256 * (e.toNat + 256 * (f.toNat + 256 *
      (g.toNat + 256 * i.toNat)))))) := ⟨_, rfl⟩
    have hlt : N < 2 ^ 64 := by omega
    have ht : (BitVec.ofNat 64 N).toNat = N := toNat_ofNat64 N hlt
    refine ⟨BitVec.ofNat 64 N, ?_⟩
    simp only [le8, List.cons.injEq, and_true]
    refine ⟨?_, ?_, ?_, ?_, ?_, ?_, ?_, ?_⟩
    · exact BitVec.eq_of_toNat_eq (by rw [extract_toNat, ht, hN, digit_low ha])
    · exact BitVec.eq_of_toNat_eq (by rw [extract_toNat, ht, hN, digit_up (k := 0) ha, digit_low hb])
    · exact BitVec.eq_of_toNat_eq (by rw [extract_toNat, ht, hN, digit_up (k := 8) ha, digit_up (k := 0) hb, digit_low hc])
    · exact BitVec.eq_of_toNat_eq (by rw [extract_toNat, ht, hN, digit_up (k := 16) ha, digit_up (k := 8) hb, digit_up (k := 0) hc, digit_low hd])
    · exact BitVec.eq_of_toNat_eq (by rw [extract_toNat, ht, hN, digit_up (k := 24) ha, digit_up (k := 16) hb, digit_up (k := 8) hc,
        digit_up (k := 0) hd, digit_low he])
    · exact BitVec.eq_of_toNat_eq (by rw [extract_toNat, ht, hN, digit_up (k := 32) ha, digit_up (k := 24) hb, digit_up (k := 16) hc,
        digit_up (k := 8) hd, digit_up (k := 0) he, digit_low hf])
    · exact BitVec.eq_of_toNat_eq (by rw [extract_toNat, ht, hN, digit_up (k := 40) ha, digit_up (k := 32) hb, digit_up (k := 24) hc,
        digit_up (k := 16) hd, digit_up (k := 8) he, digit_up (k := 0) hf, digit_low hg])
    · exact BitVec.eq_of_toNat_eq (by rw [extract_toNat, ht, hN, digit_up (k := 48) ha, digit_up (k := 40) hb, digit_up (k := 32) hc,
        digit_up (k := 24) hd, digit_up (k := 16) he, digit_up (k := 8) hf, digit_up (k := 0) hg, digit_top hi])

/-- Nine bytes and more are the bytes of an entry. -/
theorem bytes_surj (bs : List Byte) (h : 9 ≤ bs.length) : ∃ x : Ent, x.bytes = bs := by
  obtain ⟨v, hv⟩ := le8_surj (bs.take 8) (by simp; omega)
  obtain ⟨t, d, hd⟩ : ∃ t d, bs.drop 8 = t :: d := by
    cases hx : bs.drop 8 with
    | nil => have := congrArg List.length hx; simp at this; omega
    | cons t d => exact ⟨t, d, rfl⟩
  exact ⟨⟨v, t, d⟩, by rw [Ent.bytes]; simp only; rw [hv, ← hd, List.take_append_drop]⟩

/-- Bytes that are not fewer than those of the entries `es` are read as entries with the same positions. -/
theorem reread (es : List Ent) (hne : es ≠ []) (b : Nat) (bs : List Byte) (h : dataSize es ≤ bs.length) :
    ∃ es', posns b es' = posns b es ∧ datBytes es' = bs := by
  induction es generalizing b bs with
  | nil => exact absurd rfl hne
  | cons x es ih =>
    rw [dataSize_cons] at h
    cases es with
    | nil =>
      obtain ⟨y, hy⟩ := bytes_surj bs (by omega)
      exact ⟨[y], rfl, by simp [datBytes, hy]⟩
    | cons z es =>
      obtain ⟨y, hy⟩ := bytes_surj (bs.take (9 + x.data.length)) (by rw [List.length_take]; omega)
      have hl : 9 + y.data.length = 9 + x.data.length := by
        rw [← Ent.bytes_length, hy, List.length_take]; omega
      obtain ⟨es', h1, h2⟩ := ih (by simp) (b + (9 + x.data.length)) (bs.drop (9 + x.data.length)) (by rw [List.length_drop]; omega)
      exact ⟨y :: es', by rw [posns, posns, hl, h1], by rw [datBytes_cons, hy, h2, List.take_append_drop]⟩

theorem idxBytes_posns {b : Nat} {es es' : List Ent} (h : posns b es' = posns b es) : idxBytes b es' = idxBytes b es := by
  rw [idxBytes, h, idxBytes]

theorem posns_append (b : Nat) (x y : List Ent) : posns b (x ++ y) = posns b x ++ posns (b + dataSize x) y := by
  induction x generalizing b with
  | nil => rfl
  | cons e x ih =>
    simp only [List.cons_append, posns, ih, dataSize_cons]
    congr 3; omega

theorem posns_length (b : Nat) (x : List Ent) : (posns b x).length = x.length := by
  induction x generalizing b with
  | nil => rfl
  | cons e x ih => simp [posns, ih]

/-- The positions and the bytes determine the entries. -/
theorem ents_unique {b : Nat} {es es' : List Ent} (h1 : posns b es' = posns b es) (h2 : datBytes es' = datBytes es) : es' = es := by
  induction es generalizing b es' with
  | nil => cases es' with
    | nil => rfl
    | cons y es' => simp [posns] at h1
  | cons x es ih => cases es' with
    | nil => simp [posns] at h1
    | cons y es' =>
      simp only [posns, List.cons.injEq, true_and] at h1
      have hlen : es'.length = es.length := by have := congrArg List.length h1; rwa [posns_length, posns_length] at this
      have hy : y.bytes.length = x.bytes.length := by
        rw [Ent.bytes_length, Ent.bytes_length]
        cases es with
        | nil =>
          have hn : es' = [] := List.length_eq_zero_iff.mp hlen
          subst hn
          have := congrArg List.length h2
          simpa [datBytes, Ent.bytes_length] using this
        | cons z es => cases es' with
          | nil => simp at hlen
          | cons w es' => simp only [posns, List.cons.injEq] at h1; omega
      rw [datBytes_cons, datBytes_cons] at h2
      obtain ⟨e1, e2⟩ := List.append_inj h2 hy
      have hxy := bytes_inj e1
      subst hxy
      rw [ih h1 e2]

/-- The files after `n` effects of an overwriting `write_at`. -/
theorem writeEffects_upTo {A B : List Ent} {x : Ent} {st : List Byte} (e : Ent) (n : Nat) (hs : dataSize A < 2 ^ 64) :
    (writeEffects ⟨idxBytes 0 (A ++ x :: B), datBytes (A ++ x :: B), st⟩ A.length e).upTo n ⟨idxBytes 0 (A ++ x :: B), datBytes (A ++ x :: B), st⟩ =
      if n ≤ 8 + e.bytes.length ∨ B = [] then
        ⟨idxBytes 0 (A ++ x :: B), datBytes A ++ e.bytes.take (n - 8) ++ (datBytes (x :: B)).drop (e.bytes.take (n - 8)).length, st⟩
      else if n = 8 + e.bytes.length + 1 then
        ⟨idxBytes 0 (A ++ [e]), datBytes A ++ e.bytes ++ (datBytes (x :: B)).drop e.bytes.length, st⟩
      else ⟨idxBytes 0 (A ++ [e]), datBytes (A ++ [e]), st⟩ := by
  have hi := idx_at (es := A ++ x :: B) (A := A) (B := B) (e := x) rfl
  have hd : datBytes (A ++ x :: B) = datBytes A ++ datBytes (x :: B) := datBytes_append _ _
  have hp : writePosition ⟨idxBytes 0 (A ++ x :: B), datBytes (A ++ x :: B), st⟩ A.length = dataSize A := by
    rw [writePosition, if_pos (by simp)]
    simp only [hi]
    rw [List.drop_left' (by simp), List.take_left' (le8_length _), dec8_pos _ hs]
  have hlen : (idxBytes 0 (A ++ x :: B)).length = 8 * (A.length + (B.length + 1)) := by simp
  have hput := putBytes_idx (le8 (BitVec.ofNat 64 (dataSize A))) ⟨idxBytes 0 (A ++ x :: B), datBytes (A ++ x :: B), st⟩ (idxBytes 0 A) _
    (8 * A.length) n (by simp) hi
  have hsame : idxBytes 0 A ++ (le8 (BitVec.ofNat 64 (dataSize A))).take n ++ (le8 (BitVec.ofNat 64 (dataSize A)) ++
      idxBytes (dataSize A + (9 + x.data.length)) B).drop ((le8 (BitVec.ofNat 64 (dataSize A))).take n).length = idxBytes 0 (A ++ x :: B) := by
    rw [hi, List.append_assoc]
    congr 1
    have h3 : (le8 (BitVec.ofNat 64 (dataSize A))).take n = (le8 (BitVec.ofNat 64 (dataSize A)) ++
      idxBytes (dataSize A + (9 + x.data.length)) B).take ((le8 (BitVec.ofNat 64 (dataSize A))).take n).length := by
      rw [List.take_append_of_le_length (by rw [List.length_take]; omega), List.length_take, Nat.min_comm, ← List.take_take,
        List.take_of_length_le (i := List.length _) (by rw [List.length_take]; omega)]
    conv => lhs; lhs; rw [h3]
    rw [List.take_append_drop]
  rw [hsame] at hput
  rw [Effects.upTo, writeEffects, hp, List.append_assoc, List.take_append, List.foldl_append, hput, putBytes_length, le8_length, List.take_append,
    List.foldl_append, putBytes_dat e.bytes _ (datBytes A) (datBytes (x :: B)) (dataSize A) (n - 8) (by simp) hd, putBytes_length]
  by_cases hB : B = []
  · subst hB
    rw [if_neg (by simp; omega), if_pos (.inr rfl)]
    simp
  · have hBl : 0 < B.length := List.length_pos_iff.mpr hB
    rw [if_pos (by simp; omega)]
    by_cases h1 : n ≤ 8 + e.bytes.length
    · rw [if_pos (.inl h1), show n - 8 - e.bytes.length = 0 by omega]
      rfl
    · rw [if_neg (by rintro (h | h); exact h1 h; exact hB h), List.take_of_length_le (i := n - 8) (l := e.bytes) (by omega)]
      have ht : (idxBytes 0 (A ++ x :: B)).take (8 * A.length + 8) = idxBytes 0 (A ++ [e]) := by
        rw [hi, ← List.append_assoc, List.take_left' (by simp), idxBytes_append]; simp
      by_cases h2 : n = 8 + e.bytes.length + 1
      · rw [if_pos h2, show n - 8 - e.bytes.length = 1 by omega]
        simp only [List.take_succ_cons, List.take_zero, List.foldl_cons, List.foldl_nil, ht]
      · rw [if_neg h2, List.take_of_length_le (by simp; omega)]
        simp only [List.foldl_cons, List.foldl_nil, ht]
        rw [List.take_left' (by simp [Ent.bytes_length])]
        simp

/-- The parts of a log before and from an index on. -/
theorem ents_split {l : Log} {i : Nat} (hi : l.start ≤ i) (hn : i < l.next) : ∃ A x B, l.ents = A ++ x :: B ∧ A.length = i - l.start ∧
    l.ents.take (i - l.start) = A ∧ l.ents.drop (i - l.start) = x :: B := by
  refine split_at _ _ ?_
  unfold Log.next at hn; omega

/-- The effects listed for `write_at` are what `write_at` does to the files. -/
theorem write_effects {s : Store} {l : Log} (h : Reach s l) (i : Nat) (e : Ent) (hi : l.start ≤ i) (hn : i < l.next)
    (hc : s.cache.first ≤ i) (hf : (l.replaceFrom i [e]).Fits) :
    ∃ s', writeAt i e s = (.ok (), s') ∧
      s'.disk = (writeEffects s.disk (i - l.start) e).upTo (writeEffects s.disk (i - l.start) e).length s.disk := by
  obtain ⟨_, s', h1, h2, -⟩ := step_writeAt h.rep i e hi (by omega) hc hf
  refine ⟨s', h1, ?_⟩
  have hr := h.rep
  have hfit := hr.fits
  obtain ⟨A, x, B, hAB, hA, hA', hB⟩ := ents_split hi hn
  have hs : dataSize l.ents = dataSize A + (9 + x.data.length + dataSize B) := by rw [hAB]; simp
  have hf1 := hfit.1
  have hlen : (writeEffects s.disk (i - l.start) e).length = 8 + e.bytes.length + (if B = [] then 0 else 2) := by
    rw [writeEffects, List.length_append, List.length_append, putBytes_length, putBytes_length, le8_length, hr.disk, hAB]
    simp only [idxBytes_length, List.length_append, List.length_cons]
    congr 1
    cases B with
    | nil => rw [if_neg (by simp; omega), if_pos rfl]; rfl
    | cons y B => rw [if_pos (by simp; omega), if_neg (by simp)]; rfl
  rw [hlen, h2.disk, hr.disk, hAB, ← hA, writeEffects_upTo e _ (by omega), Log.overwritten, Log.replaceFrom, hA', hB]
  by_cases hBn : B = []
  · rw [if_pos (.inr hBn), if_pos hBn]
    subst hBn
    rw [garbage, if_pos (by simp), Nat.add_zero, Nat.add_sub_cancel_left, List.take_of_length_le (Nat.le_refl _)]
    simp only [datBytes_append, idxBytes_append, idxBytes_extendLast, datBytes_extendLast [e] _ (by simp), datBytes_cons, dataSize_cons,
      dataSize_nil, Nat.add_zero, Ent.bytes_length]
    simp [datBytes]
  · have hBl : 0 < B.length := List.length_pos_iff.mpr hBn
    rw [if_neg hBn, if_neg (by rintro (h | h); omega; exact hBn h), if_neg (by omega), garbage, if_neg (by simp; omega), extendLast_nil]

/-- C114, `_partial`: whatever moment of an overwriting `write_at` the process dies at, the store can be opened again and shows a log with the
same first index, the same entries before the overwritten one, and as many entries as before or as afterwards. It is the log before as long
as no byte of the entry has been written. With `n - 8` bytes of the entry written, the old positions stay and the bytes are read with them.
When the index file has been cut off, the entry is shown with the rest of the old data behind its payload, and when the data file has been
cut off too, it is the log after. What is missing: in the two middle cases the log is in general neither the one before nor the one after,
see `write_crash_forges` and `write_crash_extends`. -/
theorem write_crash_partial {s : Store} {l : Log} (h : Reach s l) (i : Nat) (e : Ent) (hi : l.start ≤ i) (hn : i < l.next)
    (hf : (l.replaceFrom i [e]).Fits) (n : Nat) (b : Int) (hb : b ≠ 0) :
    ∃ s' l', openOn ((writeEffects s.disk (i - l.start) e).upTo n s.disk) b = .ok s' ∧ Shows s' l' ∧ l'.start = l.start ∧
      (∀ j, j < i → l'.get? j = l.get? j) ∧ (l'.next = l.next ∨ l'.next = i + 1) ∧
      (n ≤ 8 → l' = l) ∧
      (n ≤ 8 + e.bytes.length ∨ l.next = i + 1 → ReadAs l.ents ((l.ents.take (i - l.start)).flatMap Ent.bytes ++ e.bytes.take (n - 8) ++
        ((l.ents.drop (i - l.start)).flatMap Ent.bytes).drop (min (n - 8) e.bytes.length)) l'.ents) ∧
      (n = 8 + e.bytes.length + 1 → i + 1 < l.next → l' = l.replaceFrom i [{ e with
        data := e.data ++ ((l.ents.drop (i - l.start)).flatMap Ent.bytes).drop e.bytes.length }]) ∧
      (8 + e.bytes.length + 2 ≤ n → i + 1 < l.next → l' = l.replaceFrom i [e]) := by
  have hr := h.rep
  have hfit := hr.fits
  obtain ⟨A, x, B, hAB, hA, hA', hB⟩ := ents_split hi hn
  obtain ⟨st, ents⟩ := l
  simp only at hAB hA hA' hB hi
  subst hAB
  obtain ⟨hf1, hf2, hf3⟩ := hfit
  simp only [Log.replaceFrom, hA'] at hf ⊢
  obtain ⟨hg1, hg2, hg3⟩ := hf
  have hel := e.bytes_length
  have hpre : ∀ (ents' : List Ent) (j : Nat), ents'.take A.length = A → j < i → Log.get? ⟨st, ents'⟩ j = Log.get? ⟨st, A ++ x :: B⟩ j := by
    intro ents' j ht hj
    unfold Log.get?
    by_cases hj' : j < st
    · simp only [if_pos hj']
    · simp only [if_neg hj']
      rw [List.getElem?_append_left (by omega), ← ht, List.getElem?_take, if_pos (by omega)]
  simp only [dataSize_append, dataSize_cons, dataSize_nil, Log.next, List.length_append, List.length_cons, List.length_nil] at hf1 hf2 hg1 hg2 hn hf3
  rw [hr.disk]
  simp only [hB]
  rw [← hA, writeEffects_upTo e n (by omega)]
  have hnext : (Log.next ⟨st, A ++ x :: B⟩ = i + 1) ↔ B = [] := by
    simp only [Log.next, List.length_append, List.length_cons]
    rw [← List.length_eq_zero_iff]; omega
  by_cases h1 : n ≤ 8 + e.bytes.length ∨ B = []
  · rw [if_pos h1]
    have hlong : dataSize (x :: B) ≤ (e.bytes.take (n - 8) ++ (datBytes (x :: B)).drop (e.bytes.take (n - 8)).length).length := by
      rw [List.length_append, List.length_drop, datBytes_length]; omega
    obtain ⟨es', p1, p2⟩ := reread (x :: B) (by simp) (dataSize A) _ hlong
    have hpos : posns 0 (A ++ es') = posns 0 (A ++ x :: B) := by
      rw [posns_append, posns_append, Nat.zero_add, p1]
    have hlen' : es'.length = B.length + 1 := by rw [← posns_length (dataSize A), p1, posns_length]; rfl
    have hdat : datBytes (A ++ es') = datBytes A ++ e.bytes.take (n - 8) ++ (datBytes (x :: B)).drop (e.bytes.take (n - 8)).length := by
      rw [datBytes_append, p2, List.append_assoc]
    have hsz : dataSize es' ≤ dataSize (x :: B) + e.bytes.length - 0 ∧ dataSize es' = (e.bytes.take (n - 8)).length + (dataSize (x :: B) - (e.bytes.take (n - 8)).length) := by
      rw [← datBytes_length es', p2, List.length_append, List.length_drop, datBytes_length, List.length_take]
      omega
    have hfit' : Log.Fits ⟨st, A ++ es'⟩ := by
      refine ⟨?_, ?_, hf3⟩
      · rw [dataSize_append, hsz.2, List.length_take, dataSize_cons]; omega
      · simp only [Log.next, List.length_append]; omega
    obtain ⟨s', g1, g2, -⟩ := open_ok hfit' b hb
    rw [idxBytes_posns hpos, hdat] at g1
    refine ⟨s', _, g1, g2.shows, rfl, fun j hj => hpre _ j (by simp) hj, .inl (by simp [Log.next, hlen']), fun hn8 => ?_, fun _ => ⟨hpos, ?_⟩,
      fun h2 h3 => ?_, fun h2 h3 => ?_⟩
    · have : es' = x :: B := by
        rw [show n - 8 = 0 by omega] at p2
        simp only [List.take_zero, List.length_nil, List.drop_zero, List.nil_append] at p2
        exact ents_unique p1 p2
      rw [this]
    · show datBytes (A ++ es') = _
      rw [hdat, List.length_take]
      rfl
    · exfalso
      rcases h1 with h | h
      · omega
      · have := hnext.mpr h; omega
    · exfalso
      rcases h1 with h | h
      · omega
      · have := hnext.mpr h; omega
  · rw [if_neg h1]
    have hnb : ¬ (n ≤ 8 + e.bytes.length ∨ Log.next ⟨st, A ++ x :: B⟩ = i + 1) := by rw [hnext]; exact h1
    have h8 : ¬ n ≤ 8 + e.bytes.length := fun h => h1 (.inl h)
    by_cases h2 : n = 8 + e.bytes.length + 1
    · rw [if_pos h2]
      obtain ⟨s', g1, g2, -⟩ := open_ok (l := ⟨st, A ++ [{ e with data := e.data ++ (datBytes (x :: B)).drop e.bytes.length }]⟩) (by
        refine ⟨?_, ?_, hf3⟩
        · simp only [dataSize_append, dataSize_cons, dataSize_nil, List.length_append, List.length_drop, datBytes_length]; omega
        · simp only [Log.next, List.length_append, List.length_cons, List.length_nil]; omega) b hb
      have e1 : datBytes (A ++ [({ e with data := e.data ++ (datBytes (x :: B)).drop e.bytes.length } : Ent)]) =
          datBytes A ++ e.bytes ++ (datBytes (x :: B)).drop e.bytes.length := by simp [datBytes, Ent.bytes]
      have e2 : idxBytes 0 (A ++ [({ e with data := e.data ++ (datBytes (x :: B)).drop e.bytes.length } : Ent)]) = idxBytes 0 (A ++ [e]) := by
        simp [idxBytes_append]
      simp only [e1, e2] at g1
      refine ⟨s', _, g1, g2.shows, rfl, fun j hj => hpre _ j (by simp) hj, .inr (by simp [Log.next]; omega), fun h => absurd h (by omega),
        fun h => absurd h hnb, fun _ _ => rfl, fun h => absurd h (by omega)⟩
    · rw [if_neg h2]
      obtain ⟨s', g1, g2, -⟩ := open_ok (l := ⟨st, A ++ [e]⟩) ⟨by simp; omega, by simp [Log.next]; omega, hf3⟩ b hb
      refine ⟨s', _, g1, g2.shows, rfl, fun j hj => hpre _ j (by simp) hj, .inr (by simp [Log.next]; omega), fun h => absurd h (by omega),
        fun h => absurd h hnb, fun h => absurd h h2, fun _ _ => rfl⟩

/-- The forged entry, with the crash before the cuts. -/
theorem crash_forges_at {s : Store} {l : Log} (h : Reach s l) (i : Nat) (hi : l.start ≤ i) (old x : Ent)
    (ho : l.get? (i + 1) = some old) (hx : x.data.length = old.data.length) (t : U64) (v : Byte) (b : Int) (hb : b ≠ 0) :
    ∃ e s', e.term = t ∧ e.vtype = v ∧ (l.replaceFrom i [e]).Fits ∧
      openOn ((writeEffects s.disk (i - l.start) e).upTo (8 + e.bytes.length) s.disk) b = .ok s' ∧
      (Op.run .nextSlot s').1 = .ok (.nat l.next) ∧ (Op.run (.entryAt (i + 1)) s').1 = .ok (.ent (some x)) := by
  have hr := h.rep
  have hn := (get?_some ho).2
  obtain ⟨A, y, B, hAB, hA, hA', hB⟩ := ents_split hi (by omega)
  rw [get?_eq (by omega), hAB, show i + 1 - l.start = A.length + 1 by omega, List.getElem?_append_right (by omega),
    show A.length + 1 - A.length = 1 by omega] at ho
  cases B with
  | nil => simp at ho
  | cons z B =>
    simp only [List.getElem?_cons_succ, List.getElem?_cons_zero, Option.some.injEq] at ho
    subst ho
    obtain ⟨hf1, hf2, hf3⟩ := hr.fits
    have hs : dataSize l.ents = dataSize A + (9 + y.data.length + (9 + z.data.length + dataSize B)) := by rw [hAB]; simp
    have hl : l.ents.length = A.length + (B.length + 2) := by rw [hAB]; simp
    have hfe : (l.replaceFrom i [⟨t, v, y.data ++ x.bytes⟩]).Fits := by
      refine ⟨?_, ?_, hf3⟩
      · simp only [Log.replaceFrom, hA', dataSize_append, dataSize_cons, dataSize_nil, List.length_append, Ent.bytes_length]; omega
      · simp only [Log.replaceFrom, hA', Log.next, List.length_append, List.length_cons, List.length_nil] at hf2 ⊢; omega
    have hel : (Ent.bytes ⟨t, v, y.data ++ x.bytes⟩).length = 9 + (y.data.length + (9 + x.data.length)) := by
      rw [Ent.bytes_length]; simp [Ent.bytes_length]
    obtain ⟨s', l', g1, g2, g3, -, -, -, g4, -, -⟩ := write_crash_partial h i _ hi (by omega) hfe
      (8 + (Ent.bytes ⟨t, v, y.data ++ x.bytes⟩).length) b hb
    refine ⟨_, s', rfl, rfl, hfe, g1, ?_, ?_⟩
    · have := g2.1
      rw [this]
      have hp := (g4 (.inl (Nat.le_refl _))).1
      have : l'.ents.length = l.ents.length := by rw [← posns_length 0, hp, posns_length]
      simp only [Log.next, g3, this]
    · rw [g2.2.2.2.1 (i + 1) (by omega)]
      obtain ⟨p1, p2⟩ := g4 (.inl (Nat.le_refl _))
      rw [Nat.add_sub_cancel_left, List.take_of_length_le (Nat.le_refl _), Nat.min_self, hA', hB] at p2
      rw [hAB] at p1
      have hwant : l'.ents = A ++ ⟨t, v, y.data⟩ :: x :: B := by
        refine ents_unique (b := 0) ?_ ?_
        · rw [p1, posns_append, posns_append]; simp only [posns, hx]
        · show l'.ents.flatMap Ent.bytes = _
          rw [p2]
          have hd : (List.flatMap Ent.bytes (y :: z :: B)).drop (Ent.bytes ⟨t, v, y.data ++ x.bytes⟩).length = datBytes B := by
            show ((y.bytes ++ (z.bytes ++ datBytes B))).drop _ = _
            rw [← List.append_assoc, List.drop_left' (by rw [List.length_append, Ent.bytes_length, Ent.bytes_length, hel]; omega)]
          rw [hd]
          show datBytes A ++ _ ++ _ = _
          simp [Ent.bytes]
      rw [get?_eq (by omega), hwant, g3, show i + 1 - l.start = A.length + 1 by omega, List.getElem?_append_right (by omega),
        show A.length + 1 - A.length = 1 by omega]
      rfl

/-- C114 is false: an overwritten entry can forge the next one. For every store with an entry at `i + 1` and every entry `x` of the same length
there is an entry such that, if the process dies after it has been written at `i` and before the files are cut off, the store shows `x` at
`i + 1` when it is opened again. The payload of the entry that is written is under the control of the client who sent it, and so are the
term, the type and the payload of `x`. -/
theorem write_crash_forges {s : Store} {l : Log} (h : Reach s l) (i : Nat) (hi : l.start ≤ i) (old x : Ent)
    (ho : l.get? (i + 1) = some old) (hx : x.data.length = old.data.length) (t : U64) (v : Byte) (b : Int) (hb : b ≠ 0) :
    ∃ e n s', e.term = t ∧ e.vtype = v ∧ (l.replaceFrom i [e]).Fits ∧ n < (writeEffects s.disk (i - l.start) e).length ∧
      openOn ((writeEffects s.disk (i - l.start) e).upTo n s.disk) b = .ok s' ∧ (Op.run .nextSlot s').1 = .ok (.nat l.next) ∧
      (Op.run (.entryAt (i + 1)) s').1 = .ok (.ent (some x)) := by
  obtain ⟨e, s', h1, h2, h3, h4, h5, h6⟩ := crash_forges_at h i hi old x ho hx t v b hb
  have hn := (get?_some ho).2
  refine ⟨e, _, s', h1, h2, h3, ?_, h4, h5, h6⟩
  rw [writeEffects, List.length_append, List.length_append, putBytes_length, putBytes_length, le8_length, h.rep.disk]
  simp only [idxBytes_length]
  rw [if_pos (by unfold Log.next at hn; omega)]
  simp

/-- C114 is false with a shorter entry too: if the process dies between the two cuts, the entry is shown with the old bytes behind its payload. -/
theorem write_crash_extends {s : Store} {l : Log} (h : Reach s l) (i : Nat) (e : Ent) (hi : l.start ≤ i) (hn : i + 1 < l.next)
    (hf : (l.replaceFrom i [e]).Fits) (hlong : dataSize [e] < dataSize (l.ents.drop (i - l.start))) (b : Int) (hb : b ≠ 0) :
    ∃ n s' e', n < (writeEffects s.disk (i - l.start) e).length ∧
      openOn ((writeEffects s.disk (i - l.start) e).upTo n s.disk) b = .ok s' ∧ Shows s' (l.replaceFrom i [e']) ∧
      e'.term = e.term ∧ e.data.length < e'.data.length := by
  obtain ⟨s', l', g1, g2, -, -, -, -, -, g3, -⟩ := write_crash_partial h i e hi (by omega) hf (8 + e.bytes.length + 1) b hb
  rw [g3 rfl hn] at g2
  have hr := h.rep
  refine ⟨_, s', _, ?_, g1, g2, rfl, ?_⟩
  · rw [writeEffects, List.length_append, List.length_append, putBytes_length, putBytes_length, le8_length, hr.disk]
    simp only [idxBytes_length]
    rw [if_pos (by unfold Log.next at hn; omega)]
    simp
  · have : (datBytes (l.ents.drop (i - l.start))).length = dataSize (l.ents.drop (i - l.start)) := datBytes_length _
    simp only [List.length_append, List.length_drop]
    show _ < _ + ((datBytes (l.ents.drop (i - l.start))).length - _)
    rw [this, Ent.bytes_length]
    simp only [dataSize_cons, dataSize_nil] at hlong
    omega

/-- `write_at` at the end of the log has the effects of `append`; see `C21_crash_partial` and `C21_not_openable`. -/
theorem write_crash_at_end (d : Disk) (k : Nat) (hk : d.idx.length = 8 * k) (e : Ent) (n : Nat) :
    (writeEffects d k e).upTo n d = (appendEffects d e).upTo n d := by
  have hp : writePosition d k = d.dat.length := by rw [writePosition, if_neg (by omega)]
  rw [appendEffects_upTo, Effects.upTo, writeEffects, hp, if_neg (by omega), List.append_nil, List.take_append, List.foldl_append,
    putBytes_idx _ d d.idx [] _ _ hk.symm (by simp), putBytes_length, le8_length, putBytes_dat _ _ d.dat [] _ _ rfl (by simp)]
  simp

/-- Three entries: the second is overwritten, the third is forged. -/
example : ∃ s, Reach s ⟨1, [e3, e3, e1]⟩ ∧ Log.get? ⟨1, [e3, e3, e1]⟩ (2 + 1) = some e1 ∧ (⟨99, 1, e1.data⟩ : Ent).data.length = e1.data.length ∧
    (Log.replaceFrom ⟨1, [e3, e3, e1]⟩ 2 [e1]).Fits ∧ dataSize [e1] < dataSize (List.drop (2 - 1) [e3, e3, e1]) ∧
    (1 : Nat) ≤ 2 ∧ 2 + 1 < Log.next ⟨1, [e3, e3, e1]⟩ := by
  obtain ⟨s, h, -⟩ := reach_three
  exact ⟨s, h, rfl, rfl, ⟨by decide, by decide, by decide⟩, by decide, by decide, by decide⟩

end Cs.LogStore
