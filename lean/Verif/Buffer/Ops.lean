import Verif.Buffer.Lemmas

/-! # Behaviour of each buffer operation on a healthy buffer (helper lemmas) -/

namespace Cs.Buffer
open Cs

/-- The four bytes of an int32, least significant first. -/
def le4 (v : I32) : List Byte :=
  [v.extractLsb' 0 8, v.extractLsb' 8 8, v.extractLsb' 16 8, v.extractLsb' 24 8]

/-- The eight bytes of a ulong, least significant first. -/
def le8 (v : U64) : List Byte :=
  [v.extractLsb' 0 8, v.extractLsb' 8 8, v.extractLsb' 16 8, v.extractLsb' 24 8,
   v.extractLsb' 32 8, v.extractLsb' 40 8, v.extractLsb' 48 8, v.extractLsb' 56 8]

@[simp] theorem le4_length (v : I32) : (le4 v).length = 4 := rfl
@[simp] theorem le8_length (v : U64) : (le8 v).length = 8 := rfl

/-- Value of four little-endian bytes, as `get_int` computes it. -/
def dec4 (bs : List Byte) : I32 :=
  (List.range 4).foldl (fun v i => v + (((bs.getD i 0).setWidth 32 : BitVec 32) <<< (i * 8))) 0#32

/-- Value of eight little-endian bytes, as `get_ulong` computes it. -/
def dec8 (bs : List Byte) : U64 :=
  (List.range 8).foldl (fun v i => v + (((bs.getD i 0).setWidth 64 : BitVec 64) <<< (i * 8))) 0#64

theorem extract_toNat {w : Nat} (v : BitVec w) (i : Nat) : (v.extractLsb' i 8).toNat = v.toNat / 2 ^ i % 256 := by
  rw [BitVec.extractLsb'_toNat, Nat.shiftRight_eq_div_pow]

theorem dec4_le4 (v : I32) : dec4 (le4 v) = v := by
  apply BitVec.eq_of_toNat_eq
  have h1 : dec4 (le4 v) = 0#32 + ((v.extractLsb' 0 8).setWidth 32) <<< 0 + ((v.extractLsb' 8 8).setWidth 32) <<< 8
      + ((v.extractLsb' 16 8).setWidth 32) <<< 16 + ((v.extractLsb' 24 8).setWidth 32) <<< 24 := rfl
  rw [h1]
  simp only [BitVec.toNat_add, BitVec.toNat_shiftLeft, BitVec.toNat_setWidth, extract_toNat, BitVec.toNat_ofNat,
    Nat.shiftLeft_eq]
  have := v.isLt
  omega

theorem dec8_step (v x : U64) (k : Nat) (hk : k + 8 ≤ 64) (hx : x.toNat = v.toNat % 2 ^ k) :
    (x + ((v.extractLsb' k 8).setWidth 64) <<< k).toNat = v.toNat % 2 ^ (k + 8) := by
  rw [BitVec.toNat_add, BitVec.toNat_shiftLeft, BitVec.toNat_setWidth, extract_toNat, hx, Nat.shiftLeft_eq, Nat.pow_add,
    Nat.mod_mul]
  have h1 : v.toNat / 2 ^ k % 256 < 256 := Nat.mod_lt _ (by decide)
  have h2 : v.toNat % 2 ^ k < 2 ^ k := Nat.mod_lt _ (Nat.two_pow_pos k)
  have h3 : 2 ^ k * 256 ≤ 2 ^ 64 := by
    rw [show (256 : Nat) = 2 ^ 8 by decide, ← Nat.pow_add]
    exact Nat.pow_le_pow_right (by decide) hk
  rw [Nat.mod_eq_of_lt (by omega : v.toNat / 2 ^ k % 256 < 2 ^ 64), Nat.mul_comm]
  have h4 : 2 ^ k * (v.toNat / 2 ^ k % 256) ≤ 2 ^ k * 255 := Nat.mul_le_mul_left _ (by omega)
  rw [Nat.mod_eq_of_lt (by omega : 2 ^ k * (v.toNat / 2 ^ k % 256) < 2 ^ 64)]
  exact Nat.mod_eq_of_lt (by omega)

theorem dec8_le8 (v : U64) : dec8 (le8 v) = v := by
  apply BitVec.eq_of_toNat_eq
  have h1 : dec8 (le8 v) = 0#64 + ((v.extractLsb' 0 8).setWidth 64) <<< 0 + ((v.extractLsb' 8 8).setWidth 64) <<< 8
      + ((v.extractLsb' 16 8).setWidth 64) <<< 16 + ((v.extractLsb' 24 8).setWidth 64) <<< 24
      + ((v.extractLsb' 32 8).setWidth 64) <<< 32 + ((v.extractLsb' 40 8).setWidth 64) <<< 40
      + ((v.extractLsb' 48 8).setWidth 64) <<< 48 + ((v.extractLsb' 56 8).setWidth 64) <<< 56 := rfl
  rw [h1, dec8_step v _ 56 (by decide), Nat.mod_eq_of_lt v.isLt]
  repeat' (apply dec8_step v _ _ (by decide))
  simp [Nat.mod_one]

theorem putInt_bytes (v : I32) : ((List.range 4).map fun i => (v.sshiftRight (i * 8)).setWidth 8) = le4 v := by
  have h : ∀ i, i + 8 ≤ 32 → (v.sshiftRight i).setWidth 8 = v.extractLsb' i 8 := by
    intro i hi
    apply BitVec.eq_of_getLsbD_eq
    intro j hj
    simp only [BitVec.getLsbD_setWidth, BitVec.getLsbD_sshiftRight, BitVec.getLsbD_extractLsb', hj, decide_true,
      Bool.true_and]
    rw [if_pos (by omega)]
    simp; omega
  simp only [List.range, List.range.loop, List.map, le4]
  rw [h _ (by omega), h _ (by omega), h _ (by omega), h _ (by omega)]

theorem putULong_bytes (v : U64) : ((List.range 8).map fun i => (v >>> (i * 8)).setWidth 8) = le8 v := rfl

/-! ## Generic read and write -/

theorem readAt_ok {b d p} (h : At b d p) {off len : Nat} (hl : p + off + len ≤ d.length) :
    readAt off len b = (.ok ((d.drop (p + off)).take len), b) := by
  simp only [readAt, run_bind_ok (run_get b), run_ite, h.pos, h.data, if_pos hl, run_pure]

theorem writeHere_ok {b d p} (h : At b d p) {bs : List Byte} (hl : p + bs.length ≤ d.length) :
    ∃ b', writeHere bs b = (.ok (), b') ∧ At b' (splice d p bs) p := by
  refine ⟨{ b with data := splice d p bs }, ?_, h.withData (splice_length _ _ _ hl)⟩
  simp only [writeHere, run_bind_ok (run_get b), run_ite, h.pos, h.data, if_pos hl, run_set]

theorem write_mv {b d p} (h : At b d p) {bs : List Byte} {n : Nat} (hn : n = bs.length)
    (hl : p + n ≤ d.length) :
    ∃ b', (do writeHere bs; modify (·.mvFw n) : BM Unit) b = (.ok (), b') ∧ At b' (splice d p bs) (p + n) := by
  subst hn
  obtain ⟨b1, h1, h2⟩ := writeHere_ok h hl
  refine ⟨b1.mvFw bs.length, ?_, ?_⟩
  · rw [run_bind_ok h1, run_modify]
  · exact h2.mvFw (by rw [splice_length _ _ _ hl]; exact hl)

/-! ## Writes -/

theorem putByte_ok {b d p} (h : At b d p) (v : Byte) (hl : p + 1 ≤ d.length) :
    ∃ b', putByte v b = (.ok (), b') ∧ At b' (splice d p [v]) (p + 1) := by
  obtain ⟨b', h1, h2⟩ := write_mv h (bs := [v]) (n := 1) rfl hl
  refine ⟨b', ?_, h2⟩
  rw [putByte, run_bind_ok (run_get b), ← h1]
  simp [h.avail, run_bind, show ¬ (d.length - p = 0) by omega]

theorem putInt_ok {b d p} (h : At b d p) (v : I32) (hl : p + 4 ≤ d.length) :
    ∃ b', putInt v b = (.ok (), b') ∧ At b' (splice d p (le4 v)) (p + 4) := by
  obtain ⟨b', h1, h2⟩ := write_mv h (bs := le4 v) (n := 4) rfl hl
  refine ⟨b', ?_, h2⟩
  rw [putInt, run_bind_ok (run_get b), putInt_bytes, ← h1]
  simp [h.avail, run_bind, show ¬ (d.length - p < 4) by omega]

theorem putULong_ok {b d p} (h : At b d p) (v : U64) (hl : p + 8 ≤ d.length) :
    ∃ b', putULong v b = (.ok (), b') ∧ At b' (splice d p (le8 v)) (p + 8) := by
  obtain ⟨b', h1, h2⟩ := write_mv h (bs := le8 v) (n := 8) rfl hl
  refine ⟨b', ?_, h2⟩
  rw [putULong, run_bind_ok (run_get b), putULong_bytes, ← h1]
  simp [h.avail, run_bind, show ¬ (d.length - p < 8) by omega]

theorem putStr_ok {b d p} (h : At b d p) (s : List Byte) (hl : p + (s.length + 1) ≤ d.length) :
    ∃ b', putStr s b = (.ok (), b') ∧ At b' (splice d p (s ++ [0])) (p + (s.length + 1)) := by
  obtain ⟨b', h1, h2⟩ := write_mv h (bs := s ++ [0]) (n := s.length + 1) (by simp) hl
  refine ⟨b', ?_, h2⟩
  rw [putStr, run_bind_ok (run_get b), ← h1]
  simp [h.avail, run_bind, show ¬ (d.length - p < s.length + 1) by omega]

theorem putBuf_ok {b d p} (h : At b d p) {src ds ps} (hs : At src ds ps) (hl : p + (ds.length - ps) ≤ d.length) :
    ∃ b', putBuf src b = (.ok (), b') ∧ At b' (splice d p (ds.drop ps)) (p + (ds.length - ps)) := by
  obtain ⟨b', h1, h2⟩ := write_mv h (bs := ds.drop ps) (n := ds.length - ps) (by simp) hl
  refine ⟨b', ?_, h2⟩
  have hp := hs.le
  have ht : (ds.drop ps).take (ds.length - ps) = ds.drop ps := by
    rw [List.take_of_length_le]; simp
  rw [putBuf, run_bind_ok (run_get b), ← h1]
  simp [h.avail, hs.avail, hs.pos, hs.data, ht, run_bind, show ¬ (d.length - p < ds.length - ps) by omega,
    show ps + (ds.length - ps) ≤ ds.length by omega]

theorem putByte_full {b d p} (h : At b d p) (v : Byte) (hl : ¬ p + 1 ≤ d.length) :
    putByte v b = (.error .thrown, b) := by
  have := h.le
  rw [putByte, run_bind_ok (run_get b)]
  simp [h.avail, run_bind, show (d.length - p = 0) by omega]

theorem putInt_full {b d p} (h : At b d p) (v : I32) (hl : ¬ p + 4 ≤ d.length) :
    putInt v b = (.error .thrown, b) := by
  have := h.le
  rw [putInt, run_bind_ok (run_get b)]
  simp [h.avail, run_bind, show (d.length - p < 4) by omega]

theorem putULong_full {b d p} (h : At b d p) (v : U64) (hl : ¬ p + 8 ≤ d.length) :
    putULong v b = (.error .thrown, b) := by
  have := h.le
  rw [putULong, run_bind_ok (run_get b)]
  simp [h.avail, run_bind, show (d.length - p < 8) by omega]

theorem putStr_full {b d p} (h : At b d p) (s : List Byte) (hl : ¬ p + (s.length + 1) ≤ d.length) :
    putStr s b = (.error .thrown, b) := by
  have := h.le
  rw [putStr, run_bind_ok (run_get b)]
  simp [h.avail, run_bind, show (d.length - p < s.length + 1) by omega]

theorem putBuf_full {b d p} (h : At b d p) {src ds ps} (hs : At src ds ps)
    (hl : ¬ p + (ds.length - ps) ≤ d.length) : putBuf src b = (.error .thrown, b) := by
  have := h.le
  rw [putBuf, run_bind_ok (run_get b)]
  simp [h.avail, hs.avail, run_bind, show (d.length - p < ds.length - ps) by omega]

/-! ## Reads -/

theorem getByte_ok {b d p} (h : At b d p) (hl : p + 1 ≤ d.length) :
    getByte b = (.ok ((d.drop p).getD 0 0), b.mvFw 1) := by
  rw [getByte, run_bind_ok (run_get b)]
  have hr := readAt_ok h (off := 0) (len := 1) hl
  simp only [Nat.add_zero] at hr
  have : ((d.drop p).take 1).getD 0 0 = (d.drop p).getD 0 0 := by
    cases d.drop p <;> rfl
  simp only [h.avail, show ¬ (d.length - p < 1) by omega, ↓reduceIte, run_bind, hr, run_pure, run_modify, this]

theorem getInt_ok {b d p} (h : At b d p) (hl : p + 4 ≤ d.length) :
    getInt b = (.ok (dec4 ((d.drop p).take 4)), b.mvFw 4) := by
  rw [getInt, run_bind_ok (run_get b)]
  have hr := readAt_ok h (off := 0) (len := 4) hl
  simp only [Nat.add_zero] at hr
  simp only [h.avail, show ¬ (d.length - p < 4) by omega, ↓reduceIte, run_bind, hr, run_pure, run_modify, dec4]

theorem getULong_ok {b d p} (h : At b d p) (hl : p + 8 ≤ d.length) :
    getULong b = (.ok (dec8 ((d.drop p).take 8)), b.mvFw 8) := by
  rw [getULong, run_bind_ok (run_get b)]
  have hr := readAt_ok h (off := 0) (len := 8) hl
  simp only [Nat.add_zero] at hr
  simp only [h.avail, show ¬ (d.length - p < 8) by omega, ↓reduceIte, run_bind, hr, run_pure, run_modify, dec8]

theorem getByte_short {b d p} (h : At b d p) (hl : ¬ p + 1 ≤ d.length) : getByte b = (.error .thrown, b) := by
  have := h.le
  rw [getByte, run_bind_ok (run_get b)]
  simp [h.avail, run_bind, show (d.length - p = 0) by omega]

theorem getInt_short {b d p} (h : At b d p) (hl : ¬ p + 4 ≤ d.length) : getInt b = (.error .thrown, b) := by
  have := h.le
  rw [getInt, run_bind_ok (run_get b)]
  simp [h.avail, run_bind, show (d.length - p < 4) by omega]

theorem getULong_short {b d p} (h : At b d p) (hl : ¬ p + 8 ≤ d.length) : getULong b = (.error .thrown, b) := by
  have := h.le
  rw [getULong, run_bind_ok (run_get b)]
  simp [h.avail, run_bind, show (d.length - p < 8) by omega]

theorem seek_run {b d p} (h : At b d p) (q : Nat) : seek q b = (.ok (), b.setPos (min q d.length)) := by
  rw [seek, run_bind_ok (run_get b), run_modify]
  have : (if q > b.size then b.size else q) = min q d.length := by rw [h.size]; split <;> omega
  rw [this]

theorem seek_at {b d p} (h : At b d p) (q : Nat) : At (b.setPos (min q d.length)) d (min q d.length) :=
  h.setPos (Nat.min_le_right _ _)

/-- Length of the leading part without NUL. -/
def nulRun : List Byte → Nat
  | [] => 0
  | c :: l => if c = 0 then 0 else nulRun l + 1

theorem nulRun_le (l : List Byte) : nulRun l ≤ l.length := by
  induction l with
  | nil => simp [nulRun]
  | cons c l ih => simp only [nulRun]; split <;> simp; omega

theorem strScan_eq {b d p} (h : At b d p) : ∀ fuel i, d.length - (p + i) < fuel →
    p + i ≤ d.length → strScan b fuel i = .ok (i + nulRun (d.drop (p + i))) := by
  intro fuel
  induction fuel with
  | zero => intro i hf; omega
  | succ fuel ih =>
    intro i hf hle
    rw [strScan, h.pos, h.size, h.data]
    by_cases hlt : p + i < d.length
    · rw [if_pos hlt]
      have hd : d.drop (p + i) = d[p + i] :: d.drop (p + i + 1) := List.drop_eq_getElem_cons hlt
      rw [List.getElem?_eq_getElem hlt]
      simp only
      rw [hd, nulRun]
      by_cases hc : d[p + i] = 0
      · simp [hc]
      · rw [if_neg hc, if_neg hc, ih (i + 1) (by omega) (by omega)]
        congr 1
        rw [Nat.add_assoc p i 1]; omega
    · rw [if_neg hlt]
      rw [List.drop_eq_nil_of_le (by omega)]; rfl

theorem getStr_run {b d p} (h : At b d p) :
    getStr b = if p + nulRun (d.drop p) ≥ d.length ∨ nulRun (d.drop p) = 0 then (.ok none, b)
      else (.ok (some ((d.drop p).take (nulRun (d.drop p)))), b.mvFw (nulRun (d.drop p) + 1)) := by
  have hs : strScan b (b.size + 1) 0 = .ok (nulRun (d.drop p)) := by
    have := strScan_eq h (b.size + 1) 0 (by rw [h.size]; omega) h.le
    simpa using this
  rw [getStr, run_bind_ok (run_get b), hs, run_bind_ok (run_liftExcept_ok _ _)]
  simp only [h.pos, h.size, run_ite]
  split
  · rfl
  · have hr := readAt_ok h (off := 0) (len := nulRun (d.drop p)) (by omega)
    simp only [Nat.add_zero] at hr
    simp only [run_bind, hr, run_modify, run_pure]

theorem getBuf_ok {b d p} (h : At b d p) {dst dd pd} (hd : At dst dd pd) (hl : p + (dd.length - pd) ≤ d.length) :
    ∃ dst', getBuf dst b = (.ok dst', b.mvFw (dd.length - pd)) ∧
      At dst' (dd.take pd ++ (d.drop p).take (dd.length - pd)) pd := by
  have hp := hd.le
  have hr := readAt_ok h (off := 0) (len := dd.length - pd) hl
  simp only [Nat.add_zero] at hr
  refine ⟨{ dst with data := splice dd pd ((d.drop p).take (dd.length - pd)) }, ?_, ?_⟩
  · simp only [getBuf, hd.avail, hd.pos, hd.data, run_bind, hr, run_modify, run_pure,
      show pd + (dd.length - pd) ≤ dd.length by omega, ↓reduceIte]
  · have hs : splice dd pd ((d.drop p).take (dd.length - pd)) = dd.take pd ++ (d.drop p).take (dd.length - pd) := by
      have : ((d.drop p).take (dd.length - pd)).length = dd.length - pd := by
        rw [List.length_take, List.length_drop]; omega
      rw [splice, this, List.drop_eq_nil_of_le (as := dd) (by omega), List.append_nil]
    rw [← hs]
    exact hd.withData (splice_length _ _ _ (by rw [List.length_take, List.length_drop]; omega))

/-! Every group of bytes is the image of a number. -/

theorem exists_le4 (bs : List Byte) (h : bs.length = 4) : ∃ v, bs = le4 v := by
  match bs, h with
  | [a, b, c, d], _ =>
    refine ⟨BitVec.ofNat 32 (a.toNat + 2 ^ 8 * b.toNat + 2 ^ 16 * c.toNat + 2 ^ 24 * d.toNat), ?_⟩
    have := a.isLt; have := b.isLt; have := c.isLt; have := d.isLt
    simp only [le4, List.cons.injEq, and_true]
    refine ⟨?_, ?_, ?_, ?_⟩ <;> apply BitVec.eq_of_toNat_eq <;> rw [extract_toNat, BitVec.toNat_ofNat] <;> omega

theorem exists_le8 (bs : List Byte) (h : bs.length = 8) : ∃ v, bs = le8 v := by
  match bs, h with
  | [a, b, c, d, e, f, g, i], _ =>
    refine ⟨BitVec.ofNat 64 (a.toNat + 2 ^ 8 * b.toNat + 2 ^ 16 * c.toNat + 2 ^ 24 * d.toNat
      + 2 ^ 32 * e.toNat + 2 ^ 40 * f.toNat + 2 ^ 48 * g.toNat + 2 ^ 56 * i.toNat), ?_⟩
    have := a.isLt; have := b.isLt; have := c.isLt; have := d.isLt
    have := e.isLt; have := f.isLt; have := g.isLt; have := i.isLt
    simp only [le8, List.cons.injEq, and_true]
    refine ⟨?_, ?_, ?_, ?_, ?_, ?_, ?_, ?_⟩ <;> apply BitVec.eq_of_toNat_eq <;> rw [extract_toNat, BitVec.toNat_ofNat] <;> omega

theorem getBuf_over {b d p} (h : At b d p) {dst dd pd} (hd : At dst dd pd) (hl : ¬ p + (dd.length - pd) ≤ d.length) :
    getBuf dst b = (.error .ub, b) := by
  rw [getBuf, run_bind_err]
  rw [readAt, run_bind_ok (run_get b), run_ite, if_neg]
  · rfl
  · rw [h.pos, h.data, hd.avail]; omega

end Cs.Buffer
