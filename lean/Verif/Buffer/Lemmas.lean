import Verif.Buffer.Model

/-! # Helper lemmas about the buffer model -/

namespace Cs.Buffer
open Cs

/-- The block really has `n` data bytes and its header says size `n`, position `p`. -/
structure HdrAt (b : Buf) (n p : Nat) : Prop where
  hn : n < 2 ^ 31
  hp : p ≤ n
  hlen : b.data.length = n
  hdr : (n < 0x8000 ∧ b.w0 = (BitVec.ofNat 16 p ++ BitVec.ofNat 16 n : BitVec 32) ∧ b.w1 = 0#32) ∨
        (0x8000 ≤ n ∧ b.w0 = BitVec.ofNat 32 n ||| 0x80000000#32 ∧ b.w1 = BitVec.ofNat 32 p)

theorem and_top (w : BitVec 32) : ((0x80000000#32 &&& w) != 0#32) = w.msb := by
  have h : 0x80000000#32 = BitVec.twoPow 32 31 := by decide
  rw [h, BitVec.twoPow_and]
  rw [BitVec.msb_eq_getLsbD_last]
  simp only [Nat.add_one_sub_one]
  cases h2 : w.getLsbD 31 <;> simp

theorem append_toNat (a c : BitVec 16) : (a ++ c : BitVec 32).toNat = a.toNat * 2 ^ 16 + c.toNat := by
  rw [BitVec.toNat_append, Nat.shiftLeft_eq, Nat.mul_comm, ← Nat.two_pow_add_eq_or_of_lt c.isLt]

theorem append_setWidth (a c : BitVec 16) : (a ++ c : BitVec 32).setWidth 16 = c := by
  apply BitVec.eq_of_toNat_eq
  rw [BitVec.toNat_setWidth, append_toNat]
  have := c.isLt
  omega

theorem append_shift (a c : BitVec 16) : ((a ++ c : BitVec 32) >>> 16).setWidth 16 = a := by
  apply BitVec.eq_of_toNat_eq
  rw [BitVec.toNat_setWidth, BitVec.toNat_ushiftRight, append_toNat, Nat.shiftRight_eq_div_pow]
  have := c.isLt
  have := a.isLt
  omega

theorem isBig_eq (b : Buf) : b.isBig = b.w0.msb := and_top _

theorem HdrAt.small_isBig {b : Buf} {n p : Nat} (hn : n < 0x8000) (hp : p ≤ n)
    (h : b.w0 = (BitVec.ofNat 16 p ++ BitVec.ofNat 16 n : BitVec 32)) : b.isBig = false := by
  rw [isBig_eq, BitVec.msb_eq_decide, h, append_toNat]
  simp only [BitVec.toNat_ofNat, decide_eq_false_iff_not]
  omega

theorem or_xor_top (n : Nat) (hn : n < 2 ^ 31) :
    ((BitVec.ofNat 32 n ||| 0x80000000#32) ^^^ 0x80000000#32).toNat = n := by
  have h : (BitVec.ofNat 32 n ||| 0x80000000#32) ^^^ 0x80000000#32 = BitVec.ofNat 32 n := by
    apply BitVec.eq_of_getLsbD_eq
    intro i hi
    have ht : 0x80000000#32 = BitVec.twoPow 32 31 := by decide
    rw [ht]
    simp only [BitVec.getLsbD_xor, BitVec.getLsbD_or, BitVec.getLsbD_twoPow, BitVec.getLsbD_ofNat]
    by_cases h31 : (31 = i)
    · subst h31
      rw [Nat.testBit_lt_two_pow hn]
      rfl
    · simp [h31]
  rw [h, BitVec.toNat_ofNat]
  omega

theorem big_msb (n : Nat) : (BitVec.ofNat 32 n ||| 0x80000000#32).msb = true := by
  rw [BitVec.msb_or]
  have : (0x80000000#32).msb = true := by decide
  rw [this, Bool.or_true]

theorem HdrAt.size {b : Buf} {n p : Nat} (h : HdrAt b n p) : b.size = n := by
  rcases h.hdr with ⟨hs, hw, hz⟩ | ⟨hs, hw, _⟩
  · rw [Buf.size, HdrAt.small_isBig hs h.hp hw, Buf.s0, hw, append_setWidth]
    simp only [Bool.false_eq_true, ↓reduceIte, BitVec.toNat_ofNat]
    omega
  · rw [Buf.size, isBig_eq, hw, big_msb]
    simp only [↓reduceIte]
    exact or_xor_top n h.hn

theorem HdrAt.pos {b : Buf} {n p : Nat} (h : HdrAt b n p) : b.pos = p := by
  have hp := h.hp
  have hn := h.hn
  rcases h.hdr with ⟨hs, hw, hz⟩ | ⟨hs, hw, hw1⟩
  · rw [Buf.pos, HdrAt.small_isBig hs h.hp hw, Buf.s1, hw, append_shift]
    simp only [Bool.false_eq_true, ↓reduceIte, BitVec.toNat_ofNat]
    omega
  · rw [Buf.pos, isBig_eq, hw, big_msb, hw1]
    simp only [↓reduceIte, BitVec.toNat_ofNat]
    omega

theorem HdrAt.setPos {b : Buf} {n p : Nat} (h : HdrAt b n p) {q : Nat} (hq : q ≤ n) : HdrAt (b.setPos q) n q := by
  have hn := h.hn
  rcases h.hdr with ⟨hs, hw, hz⟩ | ⟨hs, hw, hw1⟩
  · have : b.setPos q = { b with w0 := (BitVec.ofNat 16 q ++ BitVec.ofNat 16 n : BitVec 32) } := by
      rw [Buf.setPos, HdrAt.small_isBig hs h.hp hw, Buf.s0, hw, append_setWidth]
      rfl
    rw [this]
    exact ⟨hn, hq, h.hlen, Or.inl ⟨hs, rfl, hz⟩⟩
  · have : b.setPos q = { b with w1 := BitVec.ofNat 32 q } := by
      rw [Buf.setPos, isBig_eq, hw, big_msb]
      simp
    rw [this]
    exact ⟨hn, hq, h.hlen, Or.inr ⟨hs, hw, rfl⟩⟩

theorem setPos_data (b : Buf) (q : Nat) : (b.setPos q).data = b.data := by
  unfold Buf.setPos; split <;> rfl

theorem mvFw_data (b : Buf) (q : Nat) : (b.mvFw q).data = b.data := by
  unfold Buf.mvFw; split <;> rfl

theorem HdrAt.mvFw {b : Buf} {n p : Nat} (h : HdrAt b n p) {d : Nat} (hd : p + d ≤ n) :
    HdrAt (b.mvFw d) n (p + d) := by
  have hn := h.hn
  rcases h.hdr with ⟨hs, hw, hz⟩ | ⟨hs, hw, hw1⟩
  · have : b.mvFw d = { b with w0 := (BitVec.ofNat 16 (p + d) ++ BitVec.ofNat 16 n : BitVec 32) } := by
      rw [Buf.mvFw, HdrAt.small_isBig hs h.hp hw, Buf.s0, Buf.s1, hw, append_setWidth, append_shift, BitVec.ofNat_add]
      rfl
    rw [this]
    exact ⟨hn, hd, h.hlen, Or.inl ⟨hs, rfl, hz⟩⟩
  · have : b.mvFw d = { b with w1 := BitVec.ofNat 32 (p + d) } := by
      rw [Buf.mvFw, isBig_eq, hw, big_msb, BitVec.ofNat_add, hw1]
      simp
    rw [this]
    exact ⟨hn, hd, h.hlen, Or.inr ⟨hs, hw, rfl⟩⟩

theorem HdrAt.withData {b : Buf} {n p : Nat} (h : HdrAt b n p) {d : List Byte} (hd : d.length = n) :
    HdrAt { b with data := d } n p := ⟨h.hn, h.hp, hd, h.hdr⟩

theorem HdrAt.avail {b : Buf} {n p : Nat} (h : HdrAt b n p) : b.avail = n - p := by
  have hp := h.hp
  have hn := h.hn
  rw [Buf.avail, h.size, h.pos, subU64]
  omega

theorem HdrAt.unique {b : Buf} {n p n' p' : Nat} (h : HdrAt b n p) (h' : HdrAt b n' p') : n = n' ∧ p = p' :=
  ⟨by rw [← h.size, ← h'.size], by rw [← h.pos, ← h'.pos]⟩

theorem alloc_hdr (junk : Byte) {n : Nat} (hn : n < 2 ^ 31) :
    ∃ b, alloc junk n = .ok b ∧ HdrAt b n 0 ∧ b.data = List.replicate n junk := by
  unfold alloc
  rw [if_neg (by omega)]
  split
  · exact ⟨_, rfl, ⟨hn, Nat.zero_le _, by simp, Or.inr ⟨by assumption, rfl, rfl⟩⟩, rfl⟩
  · exact ⟨_, rfl, ⟨hn, Nat.zero_le _, by simp, Or.inl ⟨by omega, rfl, rfl⟩⟩, rfl⟩

/-- The abstract content of a healthy buffer: data and position. -/
structure At (b : Buf) (d : List Byte) (p : Nat) : Prop where
  hdr : HdrAt b d.length p
  data : b.data = d

theorem At.pos {b d p} (h : At b d p) : b.pos = p := h.hdr.pos
theorem At.size {b d p} (h : At b d p) : b.size = d.length := h.hdr.size
theorem At.avail {b d p} (h : At b d p) : b.avail = d.length - p := h.hdr.avail
theorem At.le {b d p} (h : At b d p) : p ≤ d.length := h.hdr.hp
theorem At.mvFw {b d p} (h : At b d p) {k : Nat} (hk : p + k ≤ d.length) : At (b.mvFw k) d (p + k) :=
  ⟨h.hdr.mvFw hk, by rw [mvFw_data, h.data]⟩
theorem At.setPos {b d p} (h : At b d p) {k : Nat} (hk : k ≤ d.length) : At (b.setPos k) d k :=
  ⟨h.hdr.setPos hk, by rw [setPos_data, h.data]⟩
theorem At.withData {b d p} (h : At b d p) {d' : List Byte} (hd : d'.length = d.length) :
    At { b with data := d' } d' p := ⟨by have := h.hdr.withData hd; rwa [← hd] at this, rfl⟩

theorem HdrAt.ext {b b' : Buf} {n p : Nat} (h : HdrAt b n p) (h' : HdrAt b' n p) (hd : b.data = b'.data) : b = b' := by
  obtain ⟨w0, w1, d⟩ := b
  obtain ⟨w0', w1', d'⟩ := b'
  rcases h.hdr with ⟨h1, h2, h3⟩ | ⟨h1, h2, h3⟩ <;> rcases h'.hdr with ⟨h1', h2', h3'⟩ | ⟨h1', h2', h3'⟩
  · simp_all
  · omega
  · omega
  · simp_all

theorem splice_length (l : List Byte) (i : Nat) (bs : List Byte) (h : i + bs.length ≤ l.length) :
    (splice l i bs).length = l.length := by
  simp only [splice, List.length_append, List.length_take, List.length_drop]; omega

end Cs.Buffer
