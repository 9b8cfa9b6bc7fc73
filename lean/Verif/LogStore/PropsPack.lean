import Verif.LogStore.Props

/-!
# C19: packs with a number of entries that is not positive

`log_store::pack(index, cnt)` takes an `int32`.
-/

namespace Cs.LogStore
open Cs Cs.Buffer

theorem endOffset_wrap {off count : Nat} {cnt : Int} (h1 : (off : Int) + cnt < 0) (h2 : -2 ^ 31 ≤ cnt) (hc : count < 2 ^ 62) :
    endOffset off cnt count = count := by
  unfold endOffset
  omega

/-- C19 fails for negative numbers that are larger than the number of entries before the index: everything from the index to the end of the
log is packed, exactly as if it had been asked for. -/
theorem pack_negative_all {s : Store} {l : Log} (h : Reach s l) {i : Nat} {cnt : Int} (hi : l.start ≤ i) (hn : i < l.next)
    (h1 : ((i - l.start : Nat) : Int) + cnt < 0) (h2 : -2 ^ 31 ≤ cnt) : pack i cnt s = pack i ((l.next - i : Nat) : Int) s := by
  have hf := h.rep.fits
  obtain ⟨ip, dp, sp, f, bs, rfl, -⟩ := h.rep.parts
  obtain ⟨hf1, hf2, hf3⟩ := hf
  have hcnt := count_le_dataSize l.ents
  have hnext : l.next = l.start + l.ents.length := rfl
  have e1 : endOffset (i - l.start) cnt l.ents.length = l.ents.length := endOffset_wrap h1 h2 (by omega)
  have e2 : endOffset (i - l.start) ((l.next - i : Nat) : Int) l.ents.length = l.ents.length := by
    rw [endOffset_nat (by omega)]
    omega
  rw [pack, pack, bget, bget]
  simp only [repStore]
  rw [e1, e2]

theorem intSize_neg {k : Nat} (h1 : 0 < k) (h2 : k ≤ 2 ^ 31) : intSize (2 ^ 64 - k) = 2 ^ 64 - k := by
  unfold intSize
  rw [BitVec.toNat_signExtend]
  have hm : (BitVec.ofNat 32 (2 ^ 64 - k)).msb = true := by
    rw [BitVec.msb_eq_true_iff_two_mul_ge, BitVec.toNat_ofNat]; omega
  rw [hm, BitVec.toNat_setWidth, BitVec.toNat_ofNat]
  simp only [if_true]
  omega

/-- C19 fails for the other negative numbers: `pack` throws. -/
theorem pack_negative_throws {s : Store} {l : Log} (h : Reach s l) {i : Nat} {cnt : Int} (hi : l.start ≤ i) (hn : i < l.next)
    (h0 : cnt < 0) (h1 : 0 ≤ ((i - l.start : Nat) : Int) + cnt) (h2 : -2 ^ 31 ≤ cnt) : (pack i cnt s).1 = .error .thrown := by
  have hf := h.rep.fits
  obtain ⟨ip, dp, sp, f, bs, rfl, -⟩ := h.rep.parts
  obtain ⟨hf1, hf2, hf3⟩ := hf
  have hcnt := count_le_dataSize l.ents
  have hnext : l.next = l.start + l.ents.length := rfl
  have e1 : endOffset (i - l.start) cnt l.ents.length = i - l.start - (-cnt).toNat := by
    unfold endOffset
    omega
  have e2 : subU64 (i - l.start - (-cnt).toNat) (i - l.start) = 2 ^ 64 - (-cnt).toNat := by
    unfold subU64
    omega
  have e3 : (2 ^ 64 - (-cnt).toNat) * 8 % 2 ^ 64 = 2 ^ 64 - 8 * (-cnt).toNat := by omega
  rw [pack, bget]
  simp only [repStore]
  rw [e1, if_neg (by omega), bchk, if_neg (by omega), intSize_eq (by omega), Nat.mod_eq_of_lt (by omega), bIdx (sk (by omega)), e2,
    intSize_neg (by omega) (by omega), e3, eIdx (f' := _) (e := .thrown) (by
      rw [readBlock, if_pos (by omega)]
      rfl)]

/-- C19 fails for 0: `pack` throws, it does not give an empty pack. -/
theorem pack_zero_throws {s : Store} {l : Log} (h : Reach s l) {i : Nat} (hi : l.start ≤ i) (hn : i < l.next) :
    (pack i 0 s).1 = .error .thrown := by
  have hf := h.rep.fits
  obtain ⟨ip, dp, sp, f, bs, rfl, -⟩ := h.rep.parts
  obtain ⟨hf1, hf2, hf3⟩ := hf
  have hcnt := count_le_dataSize l.ents
  have hnext : l.next = l.start + l.ents.length := rfl
  have e1 : endOffset (i - l.start) 0 l.ents.length = i - l.start := by
    unfold endOffset
    omega
  obtain ⟨st0, ents⟩ := l
  simp only at *
  obtain ⟨A, e, B, hes, hA⟩ : ∃ A e B, ents = A ++ e :: B ∧ A.length = i - st0 :=
    ⟨ents.take (i - st0), ents[i - st0]'(by omega), ents.drop (i - st0 + 1), by simp, by rw [List.length_take]; omega⟩
  have hidx : idxBytes 0 ents = idxBytes 0 A ++ ([] ++ idxBytes (0 + dataSize A) (e :: B)) := by
    rw [hes, idxBytes_append]; simp
  rw [pack, bget]
  simp only [repStore]
  rw [e1, if_neg (by omega), bchk, if_neg (by omega), intSize_eq (by omega), Nat.mod_eq_of_lt (by omega), bIdx (sk (by omega)),
    bIdx (rb hidx (by simp; omega) (by rw [subU64_eq (by omega) (by omega), Nat.sub_self]; decide) (by simp))]
  obtain ⟨r, s', hr, -⟩ := packEnd_ok (A := A) (B := []) (C := e :: B) (dp := dp)
    (st := ⟨le8 (BitVec.ofNat 64 st0), sp, false⟩) (s0 := st0) (ca := ⟨f, ents.drop (f - st0), bs⟩) (bs := bs)
    (by rw [List.append_nil, ← hes]; omega)
  rw [List.append_nil, ← hes, hA] at hr
  rw [show (idxBytes 0 A).length + ([] : List Byte).length = 8 * (i - st0) by simp; omega]
  rw [run_bind_ok hr, if_pos (by simp)]
  rfl

/-- The hypotheses can be met: a store with three entries from index 1 on, asked for a negative number from index 2 on. -/
example : ∃ s, Reach s ⟨1, [e3, e3, e1]⟩ ∧ (Log.mk 1 [e3, e3, e1]).start ≤ 2 ∧ 2 < (Log.mk 1 [e3, e3, e1]).next ∧
    ((2 - 1 : Nat) : Int) + -5 < 0 ∧ 0 ≤ ((2 - 1 : Nat) : Int) + -1 := by
  obtain ⟨s, h, -⟩ := reach_three
  exact ⟨s, h, by decide, by decide, by decide, by decide⟩

end Cs.LogStore
