import Verif.LogStore.Steps

/-! # Operations that change the log refine the ideal log (helper lemmas) -/

namespace Cs.LogStore
open Cs Cs.Buffer

/-- Replacing the tail of a file, and cutting it when told so. -/
theorem overwrite_tail {l1 l2 bs : List Byte} {p : Nat} (hp : p = l1.length) (h : l2.length ≤ bs.length) :
    overwrite (l1 ++ l2) p bs = l1 ++ bs := by
  subst hp; rw [overwrite_split, List.drop_of_length_le h]; simp

theorem overwrite_at {l1 l2 bs : List Byte} {p : Nat} (hp : p = l1.length) :
    overwrite (l1 ++ l2) p bs = (l1 ++ bs) ++ l2.drop bs.length := by
  subst hp; rw [overwrite_split]

theorem take_drop_ents {l : Log} {i f : Nat} (h1 : l.start ≤ f) (h2 : f ≤ i) :
    (l.ents.drop (f - l.start)).take (i - f) = (l.ents.take (i - l.start)).drop (f - l.start) := by
  rw [List.drop_take]; congr 1; omega

theorem writePos_ok {A B : List Ent} {ip dp s0 : Nat} {st : File} {ca : Cache} {bs : Nat}
    (hs : dataSize A + dataSize B < 2 ^ 31) :
    Runs (writePos (A.length + 1)
      ⟨⟨idxBytes 0 (A ++ B), ip, false⟩, ⟨datBytes (A ++ B), dp, false⟩, st, (A ++ B).length, s0, ca, bs⟩) fun _ s' =>
      ∃ p, s' = ⟨⟨idxBytes 0 (A ++ B), p, false⟩, ⟨datBytes (A ++ B), dataSize A, false⟩, st, (A ++ B).length, s0, ca, bs⟩ := by
  have hcnt := count_le_dataSize A
  rw [writePos, bget, run_ite]
  cases B with
  | nil =>
    rw [if_neg (by simp), run_onDat se, runs_ok]
    exact ⟨ip, by simp⟩
  | cons e B =>
    rw [if_pos (by simp), bIdx (sk (by omega)), bIdx (ru (by omega) (idx_at rfl) (by simp; omega)), run_onDat (sk (by omega)), runs_ok]
    exact ⟨_, rfl⟩

/-- The last entry gets further payload bytes `g`. -/
def extendLast : List Ent → List Byte → List Ent
  | [], _ => []
  | [e], g => [{ e with data := e.data ++ g }]
  | e :: es, g => e :: extendLast es g

theorem extendLast_cons (e x : Ent) (es : List Ent) (g : List Byte) :
    extendLast (e :: x :: es) g = e :: extendLast (x :: es) g := rfl

theorem extendLast_nil (es : List Ent) : extendLast es [] = es := by
  induction es with
  | nil => rfl
  | cons e es ih => cases es with
    | nil => simp [extendLast]
    | cons x xs => rw [extendLast_cons, ih]

theorem extendLast_length (es : List Ent) (g : List Byte) : (extendLast es g).length = es.length := by
  induction es with
  | nil => rfl
  | cons e es ih => cases es with
    | nil => rfl
    | cons x xs => rw [extendLast_cons, List.length_cons, ih]; rfl

theorem datBytes_extendLast (es : List Ent) (g : List Byte) (h : es ≠ []) : datBytes (extendLast es g) = datBytes es ++ g := by
  induction es with
  | nil => exact absurd rfl h
  | cons e es ih => cases es with
    | nil => simp [extendLast, Ent.bytes]
    | cons x xs => rw [extendLast_cons, datBytes_cons, ih (by simp), datBytes_cons e]; simp

theorem idxBytes_extendLast (es : List Ent) (g : List Byte) : ∀ b, idxBytes b (extendLast es g) = idxBytes b es := by
  induction es with
  | nil => intro b; rfl
  | cons e es ih => intro b; cases es with
    | nil => simp [extendLast]
    | cons x xs => rw [extendLast_cons, idxBytes_cons, ih, idxBytes_cons b e]

theorem dataSize_extendLast (es : List Ent) (g : List Byte) (h : es ≠ []) : dataSize (extendLast es g) = dataSize es + g.length := by
  rw [← datBytes_length, datBytes_extendLast es g h]; simp

/-- Old bytes that stay in the data file when `es` is written over the entries `B` at the end of a log. -/
def garbage (B es : List Ent) : List Byte := if B.length ≤ es.length then (datBytes B).drop (dataSize es) else []

/-- What the files hold after `es` has been written at index `i`. -/
def Log.overwritten (l : Log) (i : Nat) (es : List Ent) : Log :=
  l.replaceFrom i (extendLast es (garbage (l.ents.drop (i - l.start)) es))

theorem garbage_length (B es : List Ent) : (garbage B es).length ≤ dataSize B - dataSize es := by
  rw [garbage]; split <;> simp

theorem clean_overwritten {l : Log} {i : Nat} {es : List Ent} (hi : l.start ≤ i) (h : l.Clean i es) :
    l.overwritten i es = l.replaceFrom i es := by
  rw [Log.overwritten]
  suffices hg : garbage (l.ents.drop (i - l.start)) es = [] by rw [hg, extendLast_nil]
  rw [garbage]
  unfold Log.Clean Log.next at *
  split
  · next hlen =>
    rw [List.length_drop] at hlen
    refine List.drop_of_length_le ?_
    rw [datBytes_length]; omega
  · rfl

theorem overwritten_fits {l : Log} {i : Nat} {es : List Ent} (hne : es ≠ []) (h1 : l.Fits)
    (h2 : (l.replaceFrom i es).Fits) : (l.overwritten i es).Fits := by
  obtain ⟨a1, a2, a3⟩ := h1
  obtain ⟨b1, b2, b3⟩ := h2
  have hg := garbage_length (l.ents.drop (i - l.start)) es
  have hs : dataSize l.ents = dataSize (l.ents.take (i - l.start)) + dataSize (l.ents.drop (i - l.start)) := by
    rw [← dataSize_append, List.take_append_drop]
  simp only [Log.replaceFrom, dataSize_append, Log.next, List.length_append] at b1 b2 b3
  refine ⟨?_, ?_, a3⟩
  · simp only [Log.overwritten, Log.replaceFrom, dataSize_append, dataSize_extendLast es _ hne]; omega
  · simp only [Log.overwritten, Log.replaceFrom, Log.next, List.length_append, extendLast_length]; omega

theorem step_writeAt {s : Store} {l : Log} {C : List Ent} (h : Rep s l C) (i : Nat) (e : Ent) (hi : l.start ≤ i) (hn : i ≤ l.next)
    (hfi : s.cache.first ≤ i) (hf0 : (l.replaceFrom i [e]).Fits) :
    Runs (writeAt i e s) fun _ s' => Rep' s.bufSize s' (l.overwritten i [e]) (C.take (i - l.start) ++ [e]) := by
  have hf := overwritten_fits (es := [e]) (by simp) h.fits hf0
  have hfits := h.fits
  have hC := h.sameLen
  obtain ⟨ip, dp, sp, f, bs, rfl, hw, hb, -, -⟩ := h.parts
  obtain ⟨hf1, hf2, hf3⟩ := hfits
  have hnext : l.next = l.start + l.ents.length := rfl
  have hcnt := count_le_dataSize l.ents
  obtain ⟨st0, ents⟩ := l
  obtain ⟨A, B, hAB, hA, hB⟩ : ∃ A B, ents = A ++ B ∧ ents.take (i - st0) = A ∧ ents.drop (i - st0) = B :=
    ⟨_, _, (List.take_append_drop _ _).symm, rfl, rfl⟩
  have hAl : A.length = i - st0 := by rw [← hA]; simp only [List.length_take, Log.next] at *; omega
  simp only [Log.overwritten, Log.replaceFrom, hA, hB] at hf hf0 hfi ⊢
  have hff := hf0.1
  simp only [dataSize_append, dataSize_cons, dataSize_nil] at hff
  have hbl := e.bytes_length
  have h1 := hw.1
  have hlen : ents.length = A.length + B.length := by rw [hAB]; simp
  have hsz : dataSize ents = dataSize A + dataSize B := by rw [hAB]; simp
  have hcB := count_le_dataSize B
  simp only at hw hf1 hf2 hf3 hnext hcnt hi h1 hC
  rw [writeAt, bget]
  simp only [repStore]
  rw [if_neg (by omega)]
  obtain ⟨_, s', hr, p, rfl⟩ := writePos_ok (A := A) (B := B) (ip := ip) (dp := dp) (s0 := st0)
    (st := ⟨le8 (BitVec.ofNat 64 st0), sp, false⟩) (ca := ⟨f, C.drop (f - st0), bs⟩) (bs := bs) (by omega)
  rw [← hAB, hAl] at hr
  rw [run_bind_ok hr, bIdx (sk (by omega)), bDat tl, bIdx wrt, serialize_ok e (by omega), blift, bDat wrt]
  have hi1 : overwrite (idxBytes 0 ents) ((i - st0 + 1 - 1) * 8) (le8 (BitVec.ofNat 64 (dataSize A))) =
      idxBytes 0 (A ++ [e]) ++ (idxBytes (dataSize A) B).drop 8 := by
    rw [hAB, idxBytes_append, overwrite_at (by simp; omega), idxBytes_append]; simp
  have hd1 : overwrite (datBytes ents) (dataSize A) e.bytes =
      datBytes (A ++ [e]) ++ (datBytes B).drop e.bytes.length := by
    rw [hAB, datBytes_append, overwrite_at (by simp)]; simp
  rw [hi1, hd1, truncIfLonger, bind_assoc, bDat tl, bind_assoc, bIdx tl, bind_assoc, bIdx se,
    bind_assoc, bIdx tl]
  have hCl : (C.take (i - st0)).length = A.length := by rw [List.length_take]; omega
  have hca : ∃ f', Cache.append (if i - st0 + 1 ≤ ents.length then Cache.trim ⟨f, C.drop (f - st0), bs⟩ i
      else ⟨f, C.drop (f - st0), bs⟩) e = ⟨f', (C.take (i - st0) ++ [e]).drop (f' - st0), bs⟩ ∧
      WinOk ⟨st0, A ++ extendLast [e] (garbage B [e])⟩ f' bs := by
    have hc0 : (if i - st0 + 1 ≤ ents.length then Cache.trim ⟨f, C.drop (f - st0), bs⟩ i
      else ⟨f, C.drop (f - st0), bs⟩) = ⟨f, (C.take (i - st0)).drop (f - st0), bs⟩ := by
      split
      · rw [Cache.trim, if_neg (by simp; omega)]
        simp only [Cache.mk.injEq, true_and, and_true]
        rw [List.drop_take]; congr 1; omega
      · rw [List.take_of_length_le (by omega)]
    rw [hc0]
    obtain ⟨f', g1, g2, -⟩ := cache_append_ok (l := ⟨st0, A⟩) (C := C.take (i - st0)) { e with data := e.data ++ garbage B [e] } e hCl h1 (by simp only; omega)
      (by have := hw.2.2.1; simp only at this ⊢; omega) hw.2.2.2 hb hf
    exact ⟨f', g1, g2⟩
  obtain ⟨f', hc', hw'⟩ := hca
  have hCl' : (C.take (i - st0) ++ [e]).length = (A ++ extendLast [e] (garbage B [e])).length := by
    simp only [List.length_append, extendLast_length, hCl, List.length_cons, List.length_nil]
  have hcnt' : i - st0 + 1 = (A ++ extendLast [e] (garbage B [e])).length := by rw [← hCl']; simp only [List.length_append, hCl, hAl]; rfl
  by_cases hB1 : 1 < B.length
  · have hg : garbage B [e] = [] := by rw [garbage, if_neg (by simp; omega)]
    rw [if_pos (by simp; omega), bind_assoc, bIdx (trc rfl (by simp; omega)), bDat (trc rfl (by simp [hbl])), bmod]
    simp only []
    rw [checkIO_ok rfl rfl, runs_ok, hc']
    rw [hg, extendLast_nil] at hCl' hw' hf hcnt' ⊢
    exact Rep'.of hCl' hw' hb hf rfl rfl rfl hcnt' rfl rfl
  · have hg : garbage B [e] = (datBytes B).drop e.bytes.length := by rw [garbage, if_pos (by simp; omega), hbl]; rfl
    rw [if_neg (by simp; omega), bpure, bmod]
    simp only []
    rw [checkIO_ok rfl rfl, runs_ok, hc']
    refine Rep'.of hCl' hw' hb hf ?_ ?_ rfl hcnt' rfl rfl
    · simp only []
      rw [List.drop_of_length_le (by simp; omega), idxBytes_append, idxBytes_append, idxBytes_extendLast]; simp
    · simp only []
      rw [datBytes_append, datBytes_append, datBytes_extendLast _ _ (by simp), hg]; simp

/-! ## Packs -/

theorem endOffset_nat {off n count : Nat} (h : off + n < 2 ^ 64) : endOffset off n count = min (off + n) count := by
  unfold endOffset
  rw [show ((off : Int) + (n : Int)) % 2 ^ 64 = ((off + n : Nat) : Int) by omega, Int.toNat_natCast]

theorem packEnd_ok {A B C : List Ent} {dp : Nat} {st : File} {s0 bs : Nat} {ca : Cache}
    (hs : dataSize (A ++ B ++ C) < 2 ^ 31) :
    Runs (packEnd (A ++ B).length ⟨⟨idxBytes 0 (A ++ B ++ C), 8 * (A ++ B).length, false⟩, ⟨datBytes (A ++ B ++ C), dp, false⟩,
      st, (A ++ B ++ C).length, s0, ca, bs⟩) fun r s' => r = dataSize (A ++ B) ∧
      ∃ p q, s' = ⟨⟨idxBytes 0 (A ++ B ++ C), p, false⟩, ⟨datBytes (A ++ B ++ C), q, false⟩,
      st, (A ++ B ++ C).length, s0, ca, bs⟩ := by
  rw [packEnd, bget, run_ite]
  cases C with
  | nil =>
    rw [if_pos (by simp), bDat se, run_onDat tl, runs_ok]
    exact ⟨by simp, _, _, rfl⟩
  | cons e C =>
    obtain ⟨hsz, hlen⟩ := size_at (A := A ++ B) (e := e) (B := C) rfl
    rw [if_neg (by simp), run_onIdx (ru (by omega) (idx_at rfl) (by simp)), runs_ok]
    exact ⟨rfl, _, _, rfl⟩

theorem step_pack {s : Store} {l : Log} {C : List Ent} (h : Rep s l C) (i n : Nat) (hi : l.start ≤ i) (hn : 0 < n) (hn2 : n < 2 ^ 31)
    (hsz : dataSize (l.range i (i + n)) + 8 * n + 8 < 2 ^ 31) :
    Runs (pack i n s) fun r s' => PackOf r (l.range i (i + n)) ∧ Rep' s.bufSize s' l C := by
  have hC := h.sameLen
  have hfits := h.fits
  obtain ⟨ip, dp, sp, f, bs, rfl, hw, hb, -, -⟩ := h.parts
  have hfits' := hfits
  obtain ⟨hf1, hf2, hf3⟩ := hfits
  have hnext : l.next = l.start + l.ents.length := rfl
  have hcnt := count_le_dataSize l.ents
  rw [pack, bget]
  simp only [repStore]
  rw [if_neg (by omega), bchk, run_ite]
  by_cases hk : l.ents.length ≤ i - l.start
  · rw [if_pos hk, run_pure, runs_ok]
    refine ⟨.inl ⟨?_, rfl⟩, Rep'.of hC hw hb hfits' rfl rfl rfl rfl rfl rfl⟩
    rw [Log.range, List.drop_of_length_le hk]; simp
  · rw [if_neg hk]
    obtain ⟨st0, ents⟩ := l
    simp only [Log.range, show i + n - i = n by omega] at hsz ⊢
    obtain ⟨A, B, D, hes, hA, hB⟩ : ∃ A B D, ents = A ++ B ++ D ∧ A = ents.take (i - st0) ∧ B = (ents.drop (i - st0)).take n :=
      ⟨_, _, (ents.drop (i - st0)).drop n, by rw [List.append_assoc, List.take_append_drop, List.take_append_drop], rfl, rfl⟩
    rw [← hB] at hsz ⊢
    simp only at *
    have hAl : A.length = i - st0 := by rw [hA, List.length_take]; omega
    have hBl : B.length = min n (ents.length - (i - st0)) := by rw [hB, List.length_take, List.length_drop]
    have hoff : min (i - st0 + n) ents.length = (A ++ B).length := by simp; omega
    have hlen : ents.length = A.length + B.length + D.length := by rw [hes]; simp; omega
    have hsize : dataSize ents = dataSize A + dataSize B + dataSize D := by rw [hes]; simp; omega
    obtain ⟨e0, B', hB0⟩ : ∃ e0 B', B = e0 :: B' := by
      cases B with
      | nil => simp at hBl; omega
      | cons e0 B' => exact ⟨_, _, rfl⟩
    have hidx : idxBytes 0 ents = idxBytes 0 A ++ (idxBytes (dataSize A) B ++ idxBytes (dataSize A + dataSize B) D) := by
      rw [hes, idxBytes_append, idxBytes_append]; simp
    have hdat : datBytes ents = datBytes A ++ (datBytes B ++ datBytes D) := by rw [hes]; simp
    have h8 : (idxBytes (dataSize A) B).take 8 = le8 (BitVec.ofNat 64 (dataSize A)) := by
      rw [hB0, idxBytes_cons, List.take_left' (by simp)]
    rw [endOffset_nat (by omega), hoff, intSize_eq (by omega), Nat.mod_eq_of_lt (by omega), bIdx (sk (by omega)),
      bIdx (rb hidx (by simp; omega) (by
        rw [subU64_eq (by simp; omega) (by simp; omega), intSize_eq (by simp; omega), Nat.mod_eq_of_lt (by simp; omega)]; simp; omega) (by simp; omega))]
    obtain ⟨r, s', hr, hr2, p, q, rfl⟩ := packEnd_ok (A := A) (B := B) (C := D) (dp := dp)
      (st := ⟨le8 (BitVec.ofNat 64 st0), sp, false⟩) (s0 := st0) (ca := ⟨f, C.drop (f - st0), bs⟩) (bs := bs)
      (by rw [← hes]; omega)
    rw [← hes] at hr
    rw [show (idxBytes 0 A).length + (idxBytes (dataSize A) B).length = 8 * (A ++ B).length by simp; omega]
    rw [run_bind_ok hr, if_neg (by simp; omega), h8, dec8_pos _ (by omega), bDat (sk (by omega)),
      bDat (rb hdat (by simp) (by
        rw [hr2, subU64_eq (by simp) (by simp; omega), intSize_eq (by simp; omega)]; simp) (by simp; omega)),
      if_neg (by simp; omega), run_pure, runs_ok]
    refine ⟨.inr ⟨by simp [hB0], by omega, dataSize A, by omega, ?_⟩,
      Rep'.of hC hw hb hfits' rfl rfl rfl rfl rfl rfl⟩
    rw [idxBytes_length, datBytes_length]
    rfl

theorem relocate_ok (es : List Ent) : ∀ (b : Nat) (X Y rest : List Byte) (prev base : Nat) (d st : File) (c s0 bs : Nat) (ca : Cache),
    base ≤ b → b + dataSize es < 2 ^ 62 → prev < 2 ^ 62 →
    relocate prev base es.length (idxBytes b es ++ rest) ⟨⟨X ++ Y, X.length, false⟩, d, st, c, s0, ca, bs⟩ =
      (.ok (), ⟨⟨X ++ (idxBytes (b + prev - base) es ++ Y.drop (8 * es.length)), X.length + 8 * es.length, false⟩, d, st, c, s0, ca, bs⟩) := by
  induction es with
  | nil => intro b X Y rest prev base d st c s0 bs ca h1 h2 h3; simp [relocate]
  | cons e es ih =>
    intro b X Y rest prev base d st c s0 bs ca h1 h2 h3
    have hsz : dataSize (e :: es) = 9 + e.data.length + dataSize es := rfl
    rw [List.length_cons, relocate, idxBytes_cons, if_neg (by simp), List.append_assoc, List.take_left' (by simp),
      List.drop_left' (by simp), dec8_pos _ (by omega)]
    simp only []
    rw [bIdx wrr, overwrite_at rfl]
    rw [show X.length + (le8 (BitVec.ofNat 64 (b + prev + 2 ^ 64 - base))).length = (X ++ le8 (BitVec.ofNat 64 (b + prev + 2 ^ 64 - base))).length by simp]
    rw [ih _ _ _ _ _ _ _ _ _ _ _ _ (by omega) (by omega) h3]
    have hv : BitVec.ofNat 64 (b + prev + 2 ^ 64 - base) = BitVec.ofNat 64 (b + prev - base) := by
      apply BitVec.eq_of_toNat_eq
      simp only [BitVec.toNat_ofNat]; omega
    rw [hv, idxBytes_cons, show b + (9 + e.data.length) + prev - base = b + prev - base + (9 + e.data.length) by omega]
    simp only [List.length_append, le8_length, List.drop_drop, List.append_assoc]
    rw [show 8 + 8 * es.length = 8 * (es.length + 1) by omega, show X.length + 8 + 8 * es.length = X.length + 8 * (es.length + 1) by omega]

theorem packPos_ok {A B : List Ent} {ip dp s0 : Nat} {st : File} {ca : Cache} {bs : Nat}
    (hs : dataSize A + dataSize B < 2 ^ 31) :
    packPos A.length
      ⟨⟨idxBytes 0 (A ++ B), ip, false⟩, ⟨datBytes (A ++ B), dp, false⟩, st, (A ++ B).length, s0, ca, bs⟩ =
      (.ok (), ⟨⟨idxBytes 0 (A ++ B), (idxBytes 0 A).length, false⟩, ⟨datBytes (A ++ B), (datBytes A).length, false⟩, st, (A ++ B).length, s0, ca, bs⟩) := by
  have hcnt := count_le_dataSize A
  rw [packPos, bget, run_ite]
  cases B with
  | nil =>
    rw [if_pos (by simp), bIdx se, run_onDat se]
    simp
  | cons e B =>
    rw [if_neg (by simp), Nat.mod_eq_of_lt (by omega), bIdx (sk (by omega)), bIdx (ru (by omega) (idx_at rfl) (by simp; omega)),
      bIdx (sk (by omega)), run_onDat (sk (by omega)), idxBytes_length, datBytes_length, Nat.mul_comm]

theorem packWrite_ok {es : List Ent} {base : Nat} {X Y P Q : List Byte} {st : File} {c s0 bs : Nat} {ca : Cache}
    (hne : es ≠ []) (hb : base + dataSize es < 2 ^ 62) (hP : P.length < 2 ^ 62) :
    packWrite (8 * es.length) (dataSize es) (idxBytes base es ++ datBytes es)
      ⟨⟨X ++ Y, X.length, false⟩, ⟨P ++ Q, P.length, false⟩, st, c, s0, ca, bs⟩ =
      (.ok (), ⟨⟨X ++ (idxBytes P.length es ++ Y.drop (8 * es.length)), X.length + 8 * es.length, false⟩,
        ⟨P ++ (datBytes es ++ Q.drop (dataSize es)), P.length + dataSize es, false⟩, st, c, s0, ca, bs⟩) := by
  have hpos := List.length_pos_iff.2 hne
  have h8 : (idxBytes base es ++ datBytes es).take 8 = le8 (BitVec.ofNat 64 base) := by
    obtain ⟨e, es', rfl⟩ := List.exists_cons_of_ne_nil hne
    rw [idxBytes_cons, List.append_assoc, List.take_left' (by simp)]
  have hlast : ∀ (f : File), (onDat (writeRaw ((List.drop (8 * es.length) (idxBytes base es ++ datBytes es)).take (dataSize es))))
      ⟨f, ⟨P ++ Q, P.length, false⟩, st, c, s0, ca, bs⟩ = (.ok (), ⟨f, ⟨P ++ (datBytes es ++ Q.drop (dataSize es)), P.length + dataSize es, false⟩, st, c, s0, ca, bs⟩) := by
    intro f
    rw [List.drop_left' (by simp), List.take_of_length_le (by simp), run_onDat wrr, overwrite_at rfl]
    simp
  rw [packWrite, bDat tl, if_neg (by simp; omega), h8, dec8_pos _ (by omega)]
  by_cases hp : P.length = base
  · rw [if_pos hp, if_neg (by simp), List.take_left' (by simp)]
    try simp only []
    rw [bIdx wrr, if_neg (by simp)]
    try simp only []
    rw [hlast, overwrite_at rfl, hp]
    simp only [idxBytes_length, List.append_assoc]
  · rw [if_neg hp, show (8 * es.length + 7) / 8 = es.length by omega]
    try simp only []
    rw [run_bind_ok (relocate_ok _ _ _ _ _ _ _ _ _ _ _ _ _ (Nat.le_refl _) hb hP), if_neg (by simp)]
    try simp only []
    rw [hlast]
    simp only [show base + P.length - base = P.length by omega]

theorem packTrunc_ok {X Y P Q : List Byte} {st : File} {c s0 bs : Nat} {ca : Cache} :
    packTrunc ⟨⟨X ++ Y, X.length, false⟩, ⟨P ++ Q, P.length, false⟩, st, c, s0, ca, bs⟩ =
      (.ok (), ⟨⟨X, X.length, false⟩, ⟨P ++ (if Y = [] then Q else []), P.length + (if Y = [] then Q.length else 0), false⟩,
        st, c, s0, ca, bs⟩) := by
  rw [packTrunc, bIdx tl, bDat tl, bIdx se, bDat se, bIdx tl, run_ite]
  by_cases hY : Y = []
  · subst hY; simp
  · have := List.length_pos_iff.2 hY
    rw [if_pos (by simp; omega), bIdx (trc rfl rfl), run_onDat (trc rfl rfl), if_neg hY, if_neg hY]
    simp

theorem toNat_ofNat32 {n : Nat} (h : n < 2 ^ 31) : (BitVec.ofNat 32 n).toNat = n ∧ ¬ (BitVec.ofNat 32 n).toInt < 0 := by
  have h1 : (BitVec.ofNat 32 n).toNat = n := by rw [BitVec.toNat_ofNat]; omega
  refine ⟨h1, ?_⟩
  rw [BitVec.toInt_eq_toNat_of_lt (by omega)]; omega

theorem step_applyPack {s : Store} {l : Log} {C : List Ent} (h : Rep s l C) (i : Nat) (p : List Byte) (es : List Ent) (hi : l.start ≤ i)
    (hn : i ≤ l.next) (hp : PackOf p es) (hne : es ≠ []) (hf0 : (l.replaceFrom i es).Fits) :
    Runs (applyPack i p s) fun _ s' => Rep' s.bufSize s' (l.overwritten i es) (l.overwritten i es).ents := by
  have hf := overwritten_fits hne h.fits hf0
  have hfits := h.fits
  obtain ⟨ip, dp, sp, f, bs, rfl, hw, hb, -, -⟩ := h.parts
  obtain ⟨hf1, hf2, hf3⟩ := hfits
  have hnext : l.next = l.start + l.ents.length := rfl
  rcases hp with ⟨h0, -⟩ | ⟨-, hsz31, base, hbase, rfl⟩
  · exact absurd h0 hne
  obtain ⟨st0, ents⟩ := l
  obtain ⟨A, B, hAB, hA, hB⟩ : ∃ A B, ents = A ++ B ∧ ents.take (i - st0) = A ∧ ents.drop (i - st0) = B :=
    ⟨_, _, (List.take_append_drop _ _).symm, rfl, rfl⟩
  have hAl : A.length = i - st0 := by rw [← hA]; simp only [List.length_take, Log.next] at *; omega
  simp only [Log.overwritten, Log.replaceFrom, hA, hB] at hf hf0 ⊢
  simp only at hf1 hf2 hf3 hnext hi
  have hlen : ents.length = A.length + B.length := by rw [hAB]; simp
  have hsz : dataSize ents = dataSize A + dataSize B := by rw [hAB]; simp
  have hcB := count_le_dataSize B
  obtain ⟨hn1, hn2⟩ := toNat_ofNat32 (n := 8 * es.length) (by omega)
  obtain ⟨hm1, hm2⟩ := toNat_ofNat32 (n := dataSize es) (by omega)
  change Runs (applyPack i (le4 (BitVec.ofNat 32 (8 * es.length)) ++ (le4 (BitVec.ofNat 32 (dataSize es)) ++ (idxBytes base es ++ datBytes es))) _) _
  have e1 : List.take 4 (le4 (BitVec.ofNat 32 (8 * es.length)) ++ (le4 (BitVec.ofNat 32 (dataSize es)) ++ (idxBytes base es ++ datBytes es))) = le4 (BitVec.ofNat 32 (8 * es.length)) := List.take_left' rfl
  have e2 : List.take 4 (List.drop 4 (le4 (BitVec.ofNat 32 (8 * es.length)) ++ (le4 (BitVec.ofNat 32 (dataSize es)) ++ (idxBytes base es ++ datBytes es)))) = le4 (BitVec.ofNat 32 (dataSize es)) := by
    rw [List.drop_left' (le4_length _), List.take_left' (le4_length _)]
  have e3 : List.drop 8 (le4 (BitVec.ofNat 32 (8 * es.length)) ++ (le4 (BitVec.ofNat 32 (dataSize es)) ++ (idxBytes base es ++ datBytes es))) = idxBytes base es ++ datBytes es := by
    rw [← List.append_assoc, List.drop_left' (by simp)]
  rw [applyPack, bget, if_neg (by simp), if_neg (by simp; omega), e1, e2, e3, dec4_le4, dec4_le4, hn1, hm1, if_neg (by simp only [hn2, hm2, or_self, not_false_eq_true])]
  simp only [repStore]
  rw [subU64_eq hi (by omega), ← hAl, hAB, run_bind_ok (packPos_ok (by omega)), idxBytes_append, datBytes_append,
    run_bind_ok (packWrite_ok hne hbase (by simp; omega))]
  have ri : idxBytes 0 A ++ (idxBytes (datBytes A).length es ++ List.drop (8 * es.length) (idxBytes (0 + dataSize A) B)) =
      idxBytes 0 (A ++ es) ++ List.drop (8 * es.length) (idxBytes (0 + dataSize A) B) := by
    rw [idxBytes_append]; simp
  have rd : datBytes A ++ (datBytes es ++ List.drop (dataSize es) (datBytes B)) =
      datBytes (A ++ es) ++ List.drop (dataSize es) (datBytes B) := by simp
  obtain ⟨g1, g2, hgl⟩ : idxBytes 0 (A ++ extendLast es (garbage B es)) = idxBytes 0 (A ++ es) ∧
      datBytes (A ++ extendLast es (garbage B es)) = datBytes (A ++ es) ++ garbage B es ∧
      (A ++ extendLast es (garbage B es)).length = A.length + es.length := by
    refine ⟨?_, ?_, by rw [List.length_append, extendLast_length]⟩
    · rw [idxBytes_append, idxBytes_extendLast, idxBytes_append]
    · rw [datBytes_append, datBytes_extendLast es _ hne, datBytes_append, List.append_assoc]
  rw [ri, rd, show (idxBytes 0 A).length + 8 * es.length = (idxBytes 0 (A ++ es)).length by simp; omega,
    show (datBytes A).length + dataSize es = (datBytes (A ++ es)).length by simp,
    run_bind_ok packTrunc_ok, bchk, bmod, bmod]
  have hcut : (if List.drop (8 * es.length) (idxBytes (0 + dataSize A) B) = [] then
      List.drop (dataSize es) (datBytes B) else []) = garbage B es := by
    have hiff : List.drop (8 * es.length) (idxBytes (0 + dataSize A) B) = [] ↔ B.length ≤ es.length := by
      rw [List.drop_eq_nil_iff]; simp only [idxBytes_length]; omega
    rw [garbage]
    by_cases hle : B.length ≤ es.length
    · rw [if_pos hle, if_pos (hiff.2 hle)]
    · rw [if_neg hle, if_neg (fun h => hle (hiff.1 h))]
  rw [hcut]
  simp only [Cache.reset, show 8 * es.length / 8 = es.length by omega]
  obtain ⟨s', h1, h2, h3⟩ := Rep.fill (l := ⟨st0, A ++ extendLast es (garbage B es)⟩) (ip := (idxBytes 0 (A ++ es)).length)
    (dp := (datBytes (A ++ es)).length + if List.drop (8 * es.length) (idxBytes (0 + dataSize A) B) = [] then (List.drop (dataSize es) (datBytes B)).length else 0)
    (sp := sp) hb hf
  simp only [g1, g2, hgl] at h1
  rw [h1, runs_ok]
  exact ⟨h2, h3⟩

/-! ## Compaction -/

theorem shiftPos_ok (es : List Ent) : ∀ (b base : Nat), base ≤ b → b + dataSize es < 2 ^ 63 →
    shiftPos base es.length (idxBytes b es) = .ok (idxBytes (b - base) es) := by
  induction es with
  | nil => intro b base _ _; rfl
  | cons e es ih =>
    intro b base h1 h2
    have hsz : dataSize (e :: es) = 9 + e.data.length + dataSize es := rfl
    rw [List.length_cons, shiftPos, idxBytes_cons, if_neg (by simp), List.drop_left' (by simp), List.take_left' (by simp),
      ih _ _ (by omega) (by omega), ok_bind, dec8_pos _ (by omega), subU64_eq h1 (by omega), idxBytes_cons,
      show b + (9 + e.data.length) - base = b - base + (9 + e.data.length) by omega]
    rfl

theorem rcr {f : File} : recreate [] f = (.ok (), ⟨[], 0, false⟩) := rfl

theorem sti_over (u v : Nat) : overwrite (le8 (BitVec.ofNat 64 u)) 0 (le8 (BitVec.ofNat 64 v)) = le8 (BitVec.ofNat 64 v) := by
  have := overwrite_tail (l1 := []) (l2 := le8 (BitVec.ofNat 64 u)) (bs := le8 (BitVec.ofNat 64 v)) (p := 0) rfl (by simp)
  simpa using this

/-- Compacting everything. -/
theorem compact_all {l : Log} {C : List Ent} {ip dp sp f bs i : Nat} (hi : l.start ≤ i) (hall : l.start + l.ents.length - 1 ≤ i) :
    compact i (repStore l C ip dp sp f bs) = (.ok true, ⟨⟨[], 0, false⟩, ⟨[], 0, false⟩,
        ⟨le8 (BitVec.ofNat 64 (i + 1)), 8, false⟩, 0, i + 1, ⟨i + 1, [], bs⟩, bs⟩) := by
  rw [compact, bget]
  simp only [repStore]
  rw [if_neg (by omega), if_pos hall]
  have : compactAll i ⟨⟨idxBytes 0 l.ents, ip, false⟩, ⟨datBytes l.ents, dp, false⟩, ⟨le8 (BitVec.ofNat 64 l.start), sp, false⟩,
    l.ents.length, l.start, ⟨f, C.drop (f - l.start), bs⟩, bs⟩ = (.ok (), ⟨⟨[], 0, false⟩, ⟨[], 0, false⟩,
      ⟨le8 (BitVec.ofNat 64 (i + 1)), 8, false⟩, 0, i + 1, ⟨i + 1, [], bs⟩, bs⟩) := by
    rw [compactAll, bIdx rcr, bDat rcr,
      bSti (sk (by omega)), bSti wrt, run_modify, sti_over]
    rfl
  rw [run_bind_ok this, run_pure]

/-- Compacting a proper prefix `A`, up to filling the cache. -/
theorem compact_part {st0 : Nat} {A B C : List Ent} {ip dp sp f bs i : Nat} {s' : Store} (hi : st0 ≤ i) (hAl : A.length = i + 1 - st0) (hB : B ≠ [])
    (hsz : dataSize (A ++ B) < 2 ^ 62)
    (h1 : fillBuffer ⟨⟨idxBytes 0 B, (idxBytes 0 B).length, false⟩, ⟨datBytes B, (datBytes B).length, false⟩, ⟨le8 (BitVec.ofNat 64 (i + 1)), 8, false⟩, B.length, i + 1,
        ⟨cacheStart B.length (i + 1) bs, [], bs⟩, bs⟩ = (.ok (), s')) :
    compact i (repStore ⟨st0, A ++ B⟩ C ip dp sp f bs) = (.ok true, s') := by
  have hBpos : 0 < B.length := List.length_pos_iff.2 hB
  obtain ⟨e0, B', hB0⟩ : ∃ e0 B', B = e0 :: B' := List.exists_cons_of_length_pos hBpos
  have hsz : dataSize A + dataSize B < 2 ^ 62 := by rw [← dataSize_append]; exact hsz
  have hcA := count_le_dataSize A
  have hlen : (A ++ B).length = A.length + B.length := List.length_append
  have hidx : idxBytes 0 (A ++ B) = idxBytes 0 A ++ (le8 (BitVec.ofNat 64 (dataSize A)) ++ idxBytes (dataSize A + (9 + e0.data.length)) B') :=
    idx_at (by rw [hB0])
  have hidx2 : idxBytes 0 (A ++ B) = idxBytes 0 A ++ idxBytes (dataSize A) B := by rw [idxBytes_append]; simp
  have hk : (i - st0 + 1) * 8 = (idxBytes 0 A).length := by simp; omega
  rw [compact, bget]
  simp only [repStore]
  rw [if_neg (by omega), if_neg (by omega)]
  rw [compactPart, bind_assoc, bget]
  simp only []
  rw [hk, bind_assoc, bIdx (sk (by simp; omega)), bind_assoc, bIdx (ru (by omega) hidx rfl), bind_assoc, bIdx se, bind_assoc,
    bDat se, bind_assoc, bDat (sk (by omega)), bind_assoc, datBytes_append, List.drop_left' (by simp), bDat wrt]
  rw [show overwrite (datBytes A ++ datBytes B) 0 (datBytes B) = datBytes B ++ (datBytes A ++ datBytes B).drop (datBytes B).length from
    overwrite_split [] (datBytes A ++ datBytes B) (datBytes B)]
  rw [bind_assoc, bDat (trc rfl (by rw [subU64_eq (by simp) (by simp; omega)]; simp)), bind_assoc, bIdx (sk (by omega)), bind_assoc, hidx2,
    List.drop_left' rfl, show (((idxBytes 0 A ++ idxBytes (dataSize A) B).length - (idxBytes 0 A).length) / 8) = B.length by simp,
    shiftPos_ok _ _ _ (Nat.le_refl _) (by omega), blift, bind_assoc, Nat.sub_self, bIdx wrt]
  rw [show overwrite (idxBytes 0 A ++ idxBytes (dataSize A) B) 0 (idxBytes 0 B) = idxBytes 0 B ++ (idxBytes 0 A ++ idxBytes (dataSize A) B).drop (idxBytes 0 B).length from
    overwrite_split [] _ (idxBytes 0 B)]
  rw [bind_assoc, bIdx (trc rfl (by simp)), bind_assoc, bSti (sk (by omega)), bind_assoc, bSti wrt, sti_over, bind_assoc, bmod, bind_assoc, bmod,
    bind_assoc, bmod]
  simp only [Cache.reset]
  rw [show (A ++ B).length - (i - st0 + 1) = B.length by omega]
  simp only [le8_length, Nat.zero_add]
  rw [run_bind_ok h1, run_pure]

theorem step_compact {s : Store} {l : Log} {C : List Ent} (h : Rep s l C) (i : Nat) (hi : l.start ≤ i) (hn : i + 1 < 2 ^ 62) :
    Runs (compact i s) fun r s' => r = true ∧ Rep' s.bufSize s' (l.dropTo i) (l.dropTo i).ents := by
  have hfits := h.fits
  obtain ⟨ip, dp, sp, f, bs, rfl, hw, hb, -, -⟩ := h.parts
  obtain ⟨hf1, hf2, hf3⟩ := hfits
  have hnext : l.next = l.start + l.ents.length := rfl
  by_cases hall : l.start + l.ents.length - 1 ≤ i
  · have hd : l.dropTo i = ⟨i + 1, []⟩ := by rw [Log.dropTo, List.drop_of_length_le (by omega)]
    rw [compact_all hi hall, hd, runs_ok]
    refine ⟨rfl, Rep'.of (f := i + 1) rfl ⟨Nat.le_refl _, .inr ⟨rfl, rfl⟩, by simp, fun _ => rfl⟩ hb ⟨by simp, by simp [Log.next]; omega, by simp⟩ rfl rfl rfl rfl rfl (by simp)⟩
  · obtain ⟨st0, ents⟩ := l
    obtain ⟨A, B, hAB, hA, hB⟩ : ∃ A B, ents = A ++ B ∧ ents.take (i + 1 - st0) = A ∧ ents.drop (i + 1 - st0) = B :=
      ⟨_, _, (List.take_append_drop _ _).symm, rfl, rfl⟩
    have hAl : A.length = i + 1 - st0 := by rw [← hA]; simp only [List.length_take, Log.next] at *; omega
    simp only [Log.dropTo, hB] at *
    have hlen : ents.length = A.length + B.length := by rw [hAB]; simp
    have hsz : dataSize ents = dataSize A + dataSize B := by rw [hAB]; simp
    have hBpos : 0 < B.length := by omega
    have hfB : Log.Fits ⟨i + 1, B⟩ := ⟨by simp only; omega, by simp only [Log.next]; omega, by simp⟩
    obtain ⟨s', h1, h2, h3⟩ := Rep.fill (l := ⟨i + 1, B⟩) (ip := (idxBytes 0 B).length) (dp := (datBytes B).length)
      (sp := 8) hb hfB
    have := compact_part (st0 := st0) (A := A) (C := C) (ip := ip) (dp := dp) (sp := sp) (f := f) hi hAl (List.length_pos_iff.1 hBpos) (by rw [← hAB]; omega) h1
    rw [← hAB] at this
    rw [this, runs_ok]
    exact ⟨rfl, h2, h3⟩

/-! ## Opening -/

theorem effBufSize_pos {b : Int} (h : b ≠ 0) : 1 ≤ effBufSize b := by
  unfold effBufSize; split <;> omega

theorem open_ok {l : Log} (hf : l.Fits) (b : Int) (hb : b ≠ 0) :
    ∃ s, openOn ⟨idxBytes 0 l.ents, datBytes l.ents, le8 (BitVec.ofNat 64 l.start)⟩ b = .ok s ∧ Rep' (effBufSize b) s l l.ents := by
  have hb1 := effBufSize_pos hb
  have hn := hf.2.1
  have hst : l.start < 2 ^ 62 := by unfold Log.next at hn; omega
  obtain ⟨s', h1, h2, h3⟩ := Rep.fill (l := l) (ip := (idxBytes 0 l.ents).length) (dp := (datBytes l.ents).length)
    (sp := 8) hb1 hf
  have : init (effBufSize b) ⟨⟨idxBytes 0 l.ents, (idxBytes 0 l.ents).length, false⟩, ⟨datBytes l.ents, (datBytes l.ents).length, false⟩,
      ⟨le8 (BitVec.ofNat 64 l.start), (le8 (BitVec.ofNat 64 l.start)).length, false⟩, 0, 1, ⟨1, [], effBufSize b⟩, effBufSize b⟩ = (.ok (), s') := by
    have hsb : le8 (BitVec.ofNat 64 l.start) = [] ++ (le8 (BitVec.ofNat 64 l.start) ++ []) := by simp
    rw [init, bSti tl, if_pos (by simp), bSti (sk (by omega)), bSti (ru (p := 0) (by omega) hsb rfl), bIdx tl, bmod]
    simp only []
    rw [bmod]
    simp only [idxBytes_length, show 8 * l.ents.length / 8 = l.ents.length by omega, List.length_nil, Nat.zero_add]
    rw [idxBytes_length] at h1
    exact h1
  refine ⟨s', ?_, h2, h3⟩
  rw [openOn]
  simp only [File.opened]
  rw [this]

theorem open_new (b : Int) (hb : b ≠ 0) : ∃ s, openOn Disk.none b = .ok s ∧ Rep' (effBufSize b) s Log.empty [] := by
  have hb1 := effBufSize_pos hb
  obtain ⟨s', h1, h2, h3⟩ := Rep.fill (l := Log.empty) (ip := 0) (dp := 0)
    (sp := 8) hb1 ⟨by decide, by decide, by decide⟩
  refine ⟨s', ?_, h2, h3⟩
  have : init (effBufSize b) ⟨⟨[], 0, false⟩, ⟨[], 0, false⟩,
      ⟨[], 0, false⟩, 0, 1, ⟨1, [], effBufSize b⟩, effBufSize b⟩ = (.ok (), s') := by
    rw [init, bSti tl, if_neg (by simp), bSti (sk (by omega)), bSti wrt, bmod]
    simp only []
    rw [bmod]
    exact h1
  rw [openOn, Disk.none]
  simp only [File.opened, List.length_nil]
  rw [this]

theorem Rep.disk {s : Store} {l : Log} {C : List Ent} (h : Rep s l C) :
    s.disk = ⟨idxBytes 0 l.ents, datBytes l.ents, le8 (BitVec.ofNat 64 l.start)⟩ := by
  rw [Store.disk, h.idx, h.dat, h.sti]

end Cs.LogStore
