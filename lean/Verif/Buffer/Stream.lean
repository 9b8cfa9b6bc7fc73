import Verif.Buffer.Ops

/-! # Sequential writing and reading (helper lemmas for round trips) -/

namespace Cs.Buffer
open Cs

/-- `b` holds `done` before its position and has `k` bytes left. -/
def Wr (b : Buf) (done : List Byte) (k : Nat) : Prop :=
  ∃ rest, rest.length = k ∧ At b (done ++ rest) done.length

/-- `b` is positioned after `pre` and before `rest`. -/
def Rd (b : Buf) (pre rest : List Byte) : Prop := At b (pre ++ rest) pre.length

theorem splice_end (done rest bs : List Byte) :
    splice (done ++ rest) done.length bs = done ++ bs ++ rest.drop bs.length := by
  unfold splice
  rw [List.take_left', List.drop_append, List.drop_eq_nil_of_le (by omega)]
  · simp
  · rfl

theorem Wr.alloc (junk : Byte) {n : Nat} (hn : n < 2 ^ 31) : ∃ b, Buffer.alloc junk n = .ok b ∧ Wr b [] n := by
  obtain ⟨b, h1, h2, h3⟩ := alloc_hdr junk hn
  exact ⟨b, h1, _, List.length_replicate, ⟨by simpa using h2, by simpa using h3⟩⟩

theorem Wr.of_splice {b' : Buf} {done rest bs : List Byte} {k n : Nat} (hr : rest.length = k)
    (hn : n = bs.length) (h : n ≤ k) (ha : At b' (splice (done ++ rest) done.length bs) (done.length + n)) :
    Wr b' (done ++ bs) (k - n) := by
  subst hn
  refine ⟨rest.drop bs.length, by simp [hr], ?_⟩
  rw [splice_end] at ha
  simpa using ha

theorem Wr.putByte {b done k} (h : Wr b done k) (v : Byte) (hk : 1 ≤ k) :
    ∃ b', Buffer.putByte v b = (.ok (), b') ∧ Wr b' (done ++ [v]) (k - 1) := by
  obtain ⟨rest, hr, ha⟩ := h
  obtain ⟨b', h1, h2⟩ := putByte_ok ha v (by simp; omega)
  exact ⟨b', h1, Wr.of_splice hr rfl hk h2⟩

theorem Wr.putInt {b done k} (h : Wr b done k) (v : I32) (hk : 4 ≤ k) :
    ∃ b', Buffer.putInt v b = (.ok (), b') ∧ Wr b' (done ++ le4 v) (k - 4) := by
  obtain ⟨rest, hr, ha⟩ := h
  obtain ⟨b', h1, h2⟩ := putInt_ok ha v (by simp; omega)
  exact ⟨b', h1, Wr.of_splice hr rfl hk h2⟩

theorem Wr.putULong {b done k} (h : Wr b done k) (v : U64) (hk : 8 ≤ k) :
    ∃ b', Buffer.putULong v b = (.ok (), b') ∧ Wr b' (done ++ le8 v) (k - 8) := by
  obtain ⟨rest, hr, ha⟩ := h
  obtain ⟨b', h1, h2⟩ := putULong_ok ha v (by simp; omega)
  exact ⟨b', h1, Wr.of_splice hr rfl hk h2⟩

theorem Wr.putStr {b done k} (h : Wr b done k) (s : List Byte) (hk : s.length + 1 ≤ k) :
    ∃ b', Buffer.putStr s b = (.ok (), b') ∧ Wr b' (done ++ (s ++ [0])) (k - (s.length + 1)) := by
  obtain ⟨rest, hr, ha⟩ := h
  obtain ⟨b', h1, h2⟩ := putStr_ok ha s (by simp; omega)
  exact ⟨b', h1, Wr.of_splice hr (by simp) hk h2⟩

theorem Wr.putBuf {b done k} (h : Wr b done k) {src pre bs} (hs : Rd src pre bs) (hk : bs.length ≤ k) :
    ∃ b', Buffer.putBuf src b = (.ok (), b') ∧ Wr b' (done ++ bs) (k - bs.length) := by
  obtain ⟨rest, hr, ha⟩ := h
  obtain ⟨b', h1, h2⟩ := putBuf_ok ha hs (by simp; omega)
  refine ⟨b', h1, Wr.of_splice hr rfl hk ?_⟩
  simpa using h2

theorem Wr.rewind {b done} (h : Wr b done 0) : ∃ b', Buffer.seek 0 b = (.ok (), b') ∧ Rd b' [] done := by
  obtain ⟨rest, hr, ha⟩ := h
  have : rest = [] := List.eq_nil_of_length_eq_zero hr
  subst this
  refine ⟨_, seek_run ha 0, ?_⟩
  have := seek_at ha 0
  simpa [Rd] using this

theorem Rd.getByte {b pre rest v} (h : Rd b pre (v :: rest)) :
    ∃ b', Buffer.getByte b = (.ok v, b') ∧ Rd b' (pre ++ [v]) rest := by
  refine ⟨b.mvFw 1, ?_, ?_⟩
  · rw [getByte_ok h (by simp)]
    simp
  · have := At.mvFw h (k := 1) (by simp)
    simpa [Rd] using this

theorem Rd.getInt {b pre rest} (v : I32) (h : Rd b pre (le4 v ++ rest)) :
    ∃ b', Buffer.getInt b = (.ok v, b') ∧ Rd b' (pre ++ le4 v) rest := by
  refine ⟨b.mvFw 4, ?_, ?_⟩
  · rw [getInt_ok h (by simp)]
    rw [List.drop_left, List.take_left' (le4_length v), dec4_le4]
  · have := At.mvFw h (k := 4) (by simp)
    simpa [Rd] using this

theorem Rd.getULong {b pre rest} (v : U64) (h : Rd b pre (le8 v ++ rest)) :
    ∃ b', Buffer.getULong b = (.ok v, b') ∧ Rd b' (pre ++ le8 v) rest := by
  refine ⟨b.mvFw 8, ?_, ?_⟩
  · rw [getULong_ok h (by simp)]
    rw [List.drop_left, List.take_left' (le8_length v), dec8_le8]
  · have := At.mvFw h (k := 8) (by simp)
    simpa [Rd] using this

theorem nulRun_append (s rest : List Byte) (h : ∀ c ∈ s, c ≠ 0) : nulRun (s ++ 0 :: rest) = s.length := by
  induction s with
  | nil => rfl
  | cons c s ih =>
    simp only [List.mem_cons, forall_eq_or_imp] at h
    simp only [List.cons_append, nulRun, if_neg h.1, ih h.2, List.length_cons]

theorem Rd.getStr {b pre rest} (s : List Byte) (hne : s ≠ []) (hz : ∀ c ∈ s, c ≠ 0)
    (h : Rd b pre (s ++ 0 :: rest)) :
    ∃ b', Buffer.getStr b = (.ok (some s), b') ∧ Rd b' (pre ++ (s ++ [0])) rest := by
  have hl : 0 < s.length := List.length_pos_iff.mpr hne
  refine ⟨b.mvFw (s.length + 1), ?_, ?_⟩
  · rw [getStr_run h]
    rw [List.drop_left, nulRun_append s rest hz, if_neg (by simp; omega), List.take_left]
  · have := At.mvFw h (k := s.length + 1) (by simp)
    simpa [Rd] using this

theorem Rd.getBuf {b pre bs rest} (h : Rd b pre (bs ++ rest)) {dst dpre drest} (hd : Rd dst dpre drest)
    (hl : drest.length = bs.length) :
    ∃ dst' b', Buffer.getBuf dst b = (.ok dst', b') ∧ Rd dst' dpre bs ∧ Rd b' (pre ++ bs) rest := by
  obtain ⟨dst', h1, h2⟩ := getBuf_ok h hd (by simp; omega)
  refine ⟨dst', _, h1, ?_, ?_⟩
  · simp only [List.length_append, Nat.add_sub_cancel_left, List.take_left, List.drop_left] at h2
    rw [List.take_left' (by omega)] at h2
    exact h2
  · have := At.mvFw h (k := drest.length) (by simp; omega)
    simpa [Rd, hl] using this

theorem Rd.alloc (junk : Byte) {n : Nat} (hn : n < 2 ^ 31) :
    ∃ b, Buffer.alloc junk n = .ok b ∧ Rd b [] (List.replicate n junk) := by
  obtain ⟨b, h1, h2, h3⟩ := alloc_hdr junk hn
  exact ⟨b, h1, ⟨by simpa using h2, by simpa using h3⟩⟩

theorem Rd.lt {b pre rest} (h : Rd b pre rest) : pre.length + rest.length < 2 ^ 31 := by
  have := h.hdr.hn
  simpa using this

theorem Rd.avail {b pre rest} (h : Rd b pre rest) : b.avail = rest.length := by
  rw [At.avail h]; simp

theorem finish_ok {m : BM Unit} {b b' : Buf} (h : m b = (.ok (), b')) : finish m b = .ok b' := by
  rw [finish, h]

theorem Rd.copy (junk : Byte) {src pre rest} (h : Rd src pre rest) :
    ∃ b, Buffer.copy junk src = .ok b ∧ Rd b [] rest := by
  obtain ⟨b0, h1, h2⟩ := Wr.alloc junk (n := rest.length) (by have := h.lt; omega)
  obtain ⟨b1, h3, h4⟩ := h2.putBuf h (Nat.le_refl _)
  rw [Nat.sub_self] at h4
  obtain ⟨b2, h5, h6⟩ := h4.rewind
  refine ⟨b2, ?_, by simpa using h6⟩
  have h7 : finish (do Buffer.putBuf src; Buffer.seek 0) b0 = .ok b2 :=
    finish_ok (by rw [run_bind_ok h3, h5])
  rw [Buffer.copy, h.avail, h1, ok_bind, h7]

end Cs.Buffer
