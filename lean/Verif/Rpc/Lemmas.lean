import Verif.Rpc.Wire
import Verif.Codec.Lemmas

/-! # Helper lemmas for the RPC frames -/

namespace Cs.Rpc
open Cs Cs.Buffer Cs.Codec

theorem entryBytes_length (t v d) : (entryBytes t v d).length = 13 + d.length := by
  simp [entryBytes]; omega

theorem viewsBytes_cons (v : EView) (l : List EView) : viewsBytes (v :: l) = v.bytes ++ viewsBytes l := rfl

/-- `e` is an entry with view `v`. -/
def HasView (e : LogEntry) (v : EView) : Prop :=
  e.term = v.1 ∧ e.vtype = v.2.1 ∧ ∃ b, e.buff = some b ∧ Reach b ∧ b.data = v.2.2

inductive HasViews : List LogEntry → List EView → Prop
  | nil : HasViews [] []
  | cons {e v es vs} : HasView e v → HasViews es vs → HasViews (e :: es) (v :: vs)

inductive BImages : List Buf → List EView → Prop
  | nil : BImages [] []
  | cons {b v bs vs} : Rd b [] (EView.bytes v) → BImages bs vs → BImages (b :: bs) (v :: vs)

theorem encodeEntry_ok (junk : Byte) {e : LogEntry} {v : EView} (h : HasView e v) (hs : 13 + v.2.2.length < 2 ^ 31) :
    ∃ b, encodeEntry junk e = .ok b ∧ Rd b [] v.bytes := by
  obtain ⟨t, vt, d⟩ := v
  obtain ⟨h1, h2, b0, h3, h4, h5⟩ := h
  simp only at h1 h2 h5 hs
  obtain ⟨d', p, ha⟩ := h4.at
  have hd : d' = d := by rw [← ha.data, h5]
  subst hd
  have hr : Rd (b0.setPos (min 0 d'.length)) [] d' := by simpa [Rd] using seek_at ha 0
  obtain ⟨c0, g0, w0⟩ := Wr.alloc junk (n := 8 + 1 + 4 + d'.length) (by omega)
  obtain ⟨c1, g1, w1⟩ := w0.putULong t (by omega)
  obtain ⟨c2, g2, w2⟩ := w1.putByte vt (by omega)
  obtain ⟨c3, g3, w3⟩ := w2.putInt (BitVec.ofNat 32 d'.length) (by omega)
  obtain ⟨c4, g4, w4⟩ := w3.putBuf hr (by omega)
  have hz : 8 + 1 + 4 + d'.length - 8 - 1 - 4 - d'.length = 0 := by omega
  rw [hz] at w4
  obtain ⟨c5, g5, w5⟩ := w4.rewind
  refine ⟨c5, ?_, by simpa [EView.bytes, entryBytes] using w5⟩
  rw [encodeEntry, h3]
  simp only
  rw [ha.size, g0, ok_bind, finish_ok (seek_run ha 0), ok_bind, finish_ok]
  rw [h1, h2, run_bind_ok g1, run_bind_ok g2, run_bind_ok g3, run_bind_ok g4, g5]

theorem encodeEntries_ok (junk : Byte) : ∀ {es vs}, HasViews es vs → (viewsBytes vs).length < 2 ^ 31 →
    ∃ bs, encodeEntries junk es = .ok bs ∧ BImages bs vs
  | _, _, .nil, _ => ⟨[], rfl, .nil⟩
  | _, _, .cons (v := v) h hs, hl => by
    rw [viewsBytes_cons, List.length_append] at hl
    have : v.bytes.length = 13 + v.2.2.length := entryBytes_length _ _ _
    obtain ⟨b, h1, h2⟩ := encodeEntry_ok junk h (by omega)
    obtain ⟨bs, h3, h4⟩ := encodeEntries_ok junk hs (by omega)
    refine ⟨b :: bs, ?_, .cons h2 h4⟩
    rw [encodeEntries, h1, ok_bind, h3, ok_bind]; rfl

theorem logDataSize_aux : ∀ {bs vs}, BImages bs vs → ∀ a : I32,
    bs.foldl (fun a b => a + BitVec.ofNat 32 b.size) a = a + BitVec.ofNat 32 (viewsBytes vs).length
  | _, _, .nil, a => by simp [viewsBytes]
  | _, _, .cons h hs, a => by
    rw [List.foldl_cons, logDataSize_aux hs, viewsBytes_cons, List.length_append, BitVec.ofNat_add, (Rd.posz h).2,
      BitVec.add_assoc]

theorem logDataSize_eq {bs vs} (h : BImages bs vs) : logDataSize bs = BitVec.ofNat 32 (viewsBytes vs).length := by
  rw [logDataSize, logDataSize_aux h]; simp

theorem putBufs_ok' : ∀ {bs : List Buf} {l : List EView}, BImages bs l →
    ∀ {b done k}, Wr b done k → (viewsBytes l).length ≤ k →
    ∃ b', putBufs bs b = (.ok (), b') ∧ Wr b' (done ++ viewsBytes l) (k - (viewsBytes l).length)
  | _, _, .nil, b, _, _, w, _ => ⟨b, rfl, by simpa [viewsBytes] using w⟩
  | _, _, .cons (v := c) (vs := l) h hs, b, done, k, w, hk => by
    rw [viewsBytes_cons, List.length_append] at hk
    obtain ⟨b1, h1, w1⟩ := w.putBuf h (by omega)
    obtain ⟨b2, h2, w2⟩ := putBufs_ok' hs w1 (by omega)
    refine ⟨b2, ?_, ?_⟩
    · rw [putBufs, run_bind_ok h1, h2]
    · rw [viewsBytes_cons, List.length_append, ← List.append_assoc, Nat.sub_add_eq]; exact w2

theorem headBytes_length (r n) : (headBytes r n).length = 45 := by simp [headBytes]

theorem signExtend_small (n : Nat) (h : n < 2 ^ 31) : ((BitVec.ofNat 32 n).signExtend 64).toNat = n := by
  have hm : (BitVec.ofNat 32 n).msb = false := by
    rw [BitVec.msb_eq_decide, BitVec.toNat_ofNat]
    simp only [decide_eq_false_iff_not]; omega
  rw [BitVec.signExtend_eq_setWidth_of_msb_false hm, BitVec.toNat_setWidth, BitVec.toNat_ofNat]
  omega

theorem encodeReq_ok (junk : Byte) (r : Req) {vs : List EView} (h : HasViews r.entries vs)
    (hl : 45 + (viewsBytes vs).length < 2 ^ 31) :
    ∃ b, encodeReq junk r = .ok b ∧
      Rd b [] (headBytes r (BitVec.ofNat 32 (viewsBytes vs).length) ++ viewsBytes vs) := by
  obtain ⟨bs, hb, hi⟩ := encodeEntries_ok junk h (by omega)
  generalize hn : (viewsBytes vs).length = n at hl
  have hsz : ((BitVec.ofNat 32 reqHeaderSize + BitVec.ofNat 32 n).signExtend 64).toNat = 45 + n := by
    rw [← BitVec.ofNat_add, show reqHeaderSize = 45 by rfl, signExtend_small _ hl]
  obtain ⟨b0, h0, w0⟩ := Wr.alloc junk (n := 45 + n) hl
  obtain ⟨b1, h1, w1⟩ := w0.putByte r.type (by omega)
  obtain ⟨b2, h2, w2⟩ := w1.putInt r.src (by omega)
  obtain ⟨b3, h3, w3⟩ := w2.putInt r.dst (by omega)
  obtain ⟨b4, h4, w4⟩ := w3.putULong r.term (by omega)
  obtain ⟨b5, h5, w5⟩ := w4.putULong r.lastLogTerm (by omega)
  obtain ⟨b6, h6, w6⟩ := w5.putULong r.lastLogIdx (by omega)
  obtain ⟨b7, h7, w7⟩ := w6.putULong r.commitIdx (by omega)
  obtain ⟨b8, h8, w8⟩ := w7.putInt (BitVec.ofNat 32 n) (by omega)
  obtain ⟨b9, h9, w9⟩ := putBufs_ok' hi w8 (by omega)
  have hz : 45 + n - 1 - 4 - 4 - 8 - 8 - 8 - 8 - 4 - (viewsBytes vs).length = 0 := by omega
  rw [hz] at w9
  obtain ⟨b10, h10, w10⟩ := w9.rewind
  refine ⟨b10, ?_, by simpa [headBytes] using w10⟩
  rw [encodeReq, hb, ok_bind, logDataSize_eq hi, hn, assemble, hsz, h0, ok_bind, finish_ok]
  rw [run_bind_ok h1, run_bind_ok h2, run_bind_ok h3, run_bind_ok h4, run_bind_ok h5, run_bind_ok h6, run_bind_ok h7,
    run_bind_ok h8, run_bind_ok h9, h10]

/-! ## Receiver -/

theorem parseHeader_ok (r : Req) (n : I32) {b p} (h : At b (headBytes r n) p) :
    ∃ b', parseHeader b = (.ok ({ r with entries := [] }, n), b') ∧ At b' (headBytes r n) 45 := by
  have hs := seek_run h 0
  have ha := seek_at h 0
  have r0 : Rd (b.setPos (min 0 (headBytes r n).length)) [] (headBytes r n) := by simpa [Rd] using ha
  rw [headBytes] at r0
  obtain ⟨c1, h1, w1⟩ := Rd.getByte r0
  obtain ⟨c2, h2, w2⟩ := Rd.getInt _ w1
  obtain ⟨c3, h3, w3⟩ := Rd.getInt _ w2
  obtain ⟨c4, h4, w4⟩ := Rd.getULong _ w3
  obtain ⟨c5, h5, w5⟩ := Rd.getULong _ w4
  obtain ⟨c6, h6, w6⟩ := Rd.getULong _ w5
  obtain ⟨c7, h7, w7⟩ := Rd.getULong _ w6
  have w7' : Rd c7 ([] ++ [r.type] ++ le4 r.src ++ le4 r.dst ++ le8 r.term ++ le8 r.lastLogTerm ++ le8 r.lastLogIdx
      ++ le8 r.commitIdx) (le4 n ++ []) := by simpa using w7
  obtain ⟨c8, h8, w8⟩ := Rd.getInt _ w7'
  refine ⟨c8, ?_, ?_⟩
  · rw [← headBytes] at h1
    rw [parseHeader, run_bind_ok hs, run_bind_ok h1, run_bind_ok h2, run_bind_ok h3, run_bind_ok h4, run_bind_ok h5,
      run_bind_ok h6, run_bind_ok h7, run_bind_ok h8]
    rfl
  · have := w8
    simp only [Rd] at this
    simpa [headBytes] using this

theorem parseEntries_ok (junk : Byte) : ∀ (vs : List EView) (fuel : Nat) {b pre}, Rd b pre (viewsBytes vs) →
    vs.length < fuel → ∃ es b', parseEntries junk fuel b = (.ok es, b') ∧ HasViews es vs ∧
      (∀ e ∈ es, ∃ c, e.buff = some c ∧ c.pos = 0) := by
  intro vs
  induction vs with
  | nil =>
    intro fuel b pre h hf
    obtain ⟨fuel, rfl⟩ : ∃ k, fuel = k + 1 := ⟨fuel - 1, by simp at hf; omega⟩
    refine ⟨[], b, ?_, .nil, by simp⟩
    rw [parseEntries, run_bind_ok (run_get b), run_ite, if_neg]
    · rfl
    · rw [At.size h, At.pos h]; simp [viewsBytes]
  | cons v vs ih =>
    intro fuel b pre h hf
    obtain ⟨fuel, rfl⟩ : ∃ k, fuel = k + 1 := ⟨fuel - 1, by simp at hf; omega⟩
    obtain ⟨t, vt, d⟩ := v
    have hlt := h.lt
    rw [viewsBytes_cons] at h hlt
    have hlen : (EView.bytes (t, vt, d)).length = 13 + d.length := entryBytes_length _ _ _
    rw [List.length_append, hlen] at hlt
    simp only [EView.bytes, entryBytes, List.append_assoc, List.cons_append] at h
    obtain ⟨c1, h1, w1⟩ := Rd.getULong _ h
    obtain ⟨c2, h2, w2⟩ := Rd.getByte w1
    obtain ⟨c3, h3, w3⟩ := Rd.getInt _ w2
    obtain ⟨dst, h4, w4⟩ := Rd.alloc junk (n := d.length) (by omega)
    obtain ⟨dst', c5, h5, w5, w6⟩ := w3.getBuf w4 (by simp)
    obtain ⟨es, b', h7, h8, h9⟩ := ih fuel w6 (by simp at hf; omega)
    refine ⟨{ term := t, vtype := vt, buff := some dst' } :: es, b', ?_, ?_, ?_⟩
    · rw [parseEntries, run_bind_ok (run_get b), run_ite, if_pos, run_bind_ok h1, run_bind_ok h2, run_bind_ok h3,
        signExtend_small _ (by omega), h4, run_bind_ok (run_liftExcept_ok _ _), run_bind_ok h5, run_bind_ok h7]
      · rfl
      · rw [At.size h, At.pos h]; simp; omega
    · exact .cons ⟨rfl, rfl, dst', rfl, Rd.reach w5, by rw [At.data w5]; rfl⟩ h8
    · intro e he
      rcases List.mem_cons.mp he with rfl | he
      · exact ⟨dst', rfl, (Rd.posz w5).1⟩
      · exact h9 e he

/-- A session ready for the next frame. -/
def Ready (s : Session) : Prop := ∃ d, d.length = 45 ∧ At s.header d 0

theorem recvInto_all {b : Buf} {d bs : List Byte} (h : At b d 0) (hl : bs.length = d.length) :
    ∃ b', recvInto b bs = .ok b' ∧ At b' bs 0 := by
  have hle := h.le
  refine ⟨{ b with data := splice b.data b.pos bs }, ?_, ?_⟩
  · rw [recvInto, if_pos]; rw [h.pos, h.data]; omega
  · have : splice b.data b.pos bs = bs := by
      rw [h.data, h.pos, splice, List.drop_eq_nil_of_le (by omega)]; simp
    rw [this]
    exact h.withData hl

theorem views_length_le (vs : List EView) : vs.length ≤ (viewsBytes vs).length := by
  induction vs with
  | nil => simp
  | cons v vs ih =>
    rw [viewsBytes_cons, List.length_append, List.length_cons]
    have : v.bytes.length = 13 + v.2.2.length := entryBytes_length _ _ _
    omega

theorem ofNat_toInt (n : Nat) (h : n < 2 ^ 31) : (BitVec.ofNat 32 n).toInt = n := by
  rw [BitVec.toInt_eq_toNat_of_lt] <;> rw [BitVec.toNat_ofNat] <;> omega

theorem seek_data {b d p} (h : At b d p) : At (seek 0 b).2 d 0 := by
  rw [seek_run h 0]
  have := seek_at h 0
  simpa using this

theorem size_field (r : Req) (n : I32) {h0 p} (w0 : At h0 (headBytes r n) p) :
    ∃ h2, readSize h0 = (.ok n, h2) ∧ At h2 (headBytes r n) 45 := by
  have hs := seek_run w0 (reqHeaderSize - 4)
  have ha := seek_at w0 (reqHeaderSize - 4)
  rw [headBytes_length] at hs ha
  obtain ⟨pre, hsplit, hpre⟩ : ∃ pre, headBytes r n = pre ++ le4 n ∧ pre.length = 41 := by
    refine ⟨r.type :: (le4 r.src ++ (le4 r.dst ++ (le8 r.term ++ (le8 r.lastLogTerm ++ (le8 r.lastLogIdx ++
      le8 r.commitIdx))))), by simp [headBytes], by simp⟩
  have hrd : Rd (h0.setPos (min (reqHeaderSize - 4) 45)) pre (le4 n ++ []) := by
    rw [Rd, hpre, List.append_nil, ← hsplit]; exact ha
  obtain ⟨h2, g2, w2⟩ := Rd.getInt _ hrd
  refine ⟨h2, by rw [readSize, run_bind_ok hs, g2], ?_⟩
  rw [Rd, List.append_nil, ← hsplit, headBytes_length] at w2
  exact w2

theorem onEntries_ok (r h rest es ld) : onEntries r h rest (.ok es, ld) =
    .request { r with entries := es } { header := (seek 0 h).2, logData := ld } rest := rfl
theorem onParsed_ok (junk ld rest r n h) : onParsed junk ld rest (.ok (r, n), h) =
    if n.toInt > 0 then onEntries r h rest (parseLogData junk ld)
    else .request r { header := (seek 0 h).2, logData := ld } rest := rfl
theorem onData_ok (junk h rest ld) : onData junk h rest (.ok ld) =
    readComplete junk { header := h, logData := ld } rest := rfl
theorem onAlloc_ok (junk h sz input ld) : onAlloc junk h sz input (.ok ld) =
    if input.length < sz then .incomplete else onData junk h (input.drop sz) (recvInto ld (input.take sz)) := rfl
theorem onSize_ok (junk s rest n h) : onSize junk s rest (.ok n, h) =
    if n.toInt < 0 ∨ n.toInt > 0x1000000 then .closed
    else if n.toInt = 0 then readComplete junk { s with header := h } rest
    else onAlloc junk h n.toInt.toNat rest (alloc junk n.toInt.toNat) := rfl
theorem onHeader_ok (junk s rest h) : onHeader junk s rest (.ok h) = onSize junk s rest (readSize h) := rfl

theorem receive_ok (junk : Byte) (s : Session) (hs : Ready s) (r : Req) (vs : List EView)
    (hl : (viewsBytes vs).length ≤ 0x1000000) (rest : List Byte) :
    ∃ es s', receive junk s (headBytes r (BitVec.ofNat 32 (viewsBytes vs).length) ++ viewsBytes vs ++ rest) =
      .request { r with entries := es } s' rest ∧ HasViews es vs ∧ Ready s' ∧
      (∀ e ∈ es, ∃ c, e.buff = some c ∧ c.pos = 0) := by
  generalize hn : (viewsBytes vs).length = n at hl
  obtain ⟨d, hd, hh⟩ := hs
  have hhl := headBytes_length r (BitVec.ofNat 32 n)
  obtain ⟨h0, g0, w0⟩ := recvInto_all hh (bs := headBytes r (BitVec.ofNat 32 n)) (by rw [hhl, hd])
  obtain ⟨h2, g2, w2⟩ := size_field r _ w0
  have hint : (BitVec.ofNat 32 n).toInt = n := ofNat_toInt n (by omega)
  obtain ⟨h3, g3, w3⟩ := parseHeader_ok r _ w2
  have hrdy : ∀ ld, Ready { header := (seek 0 h3).2, logData := ld } := fun ld => ⟨_, hhl, seek_data w3⟩
  rw [receive, if_neg (by simp [hhl, reqHeaderSize]), List.append_assoc,
    List.take_left' (by rw [hhl]; rfl), List.drop_left' (by rw [hhl]; rfl), g0, onHeader_ok, g2, onSize_ok, hint,
    if_neg (by omega)]
  by_cases hz : n = 0
  · subst hz
    have hvs : vs = [] := List.eq_nil_of_length_eq_zero (by have := views_length_le vs; omega)
    subst hvs
    refine ⟨[], { s with header := (seek 0 h3).2 }, ?_, .nil, hrdy _, by simp⟩
    rw [if_pos (by simp), readComplete, g3, onParsed_ok, hint, if_neg (by simp)]
    simp [viewsBytes]
  · rw [if_neg (by omega), Int.toNat_natCast]
    obtain ⟨ld, ga, wa⟩ := Rd.alloc junk (n := n) (by omega)
    have wa' : At ld (List.replicate n junk) 0 := by simpa [Rd] using wa
    obtain ⟨ld', gb, wb⟩ := recvInto_all wa' (bs := viewsBytes vs) (by simp [hn])
    have wb' : Rd (ld'.setPos (min 0 (viewsBytes vs).length)) [] (viewsBytes vs) := by
      have := seek_at wb 0
      simpa [Rd] using this
    obtain ⟨es, b', g4, h4, h5⟩ := parseEntries_ok junk vs (n + 1) wb' (by have := views_length_le vs; omega)
    refine ⟨es, { header := (seek 0 h3).2, logData := b' }, ?_, h4, hrdy _, h5⟩
    have hp : parseLogData junk ld' = (.ok es, b') := by
      rw [parseLogData, run_bind_ok (seek_run wb 0), run_bind_ok (run_get _), At.size wb', List.nil_append]
      rw [hn] at g4 ⊢
      exact g4
    rw [ga, onAlloc_ok, if_neg (by simp [hn]), List.take_left' hn, List.drop_left' hn, gb, onData_ok, readComplete, g3,
      onParsed_ok, hint, if_pos (by omega), hp, onEntries_ok]

/-! ## Arbitrary bytes -/

theorem take_drop_exists (l : List Byte) (n : Nat) (h : n ≤ l.length) : ∃ a b, l = a ++ b ∧ a.length = n :=
  ⟨l.take n, l.drop n, (List.take_append_drop n l).symm, by simp [h]⟩

theorem head_split (l : List Byte) (h : 13 ≤ l.length) :
    ∃ (t : U64) (vt : Byte) (sz : I32) (tail : List Byte), l = le8 t ++ vt :: (le4 sz ++ tail) := by
  obtain ⟨a, b, rfl, ha⟩ := take_drop_exists l 8 (by omega)
  rw [List.length_append] at h
  obtain ⟨t, rfl⟩ := exists_le8 a ha
  match b, h with
  | vt :: b, h =>
    rw [List.length_cons, le8_length] at h
    obtain ⟨c, d, rfl, hc⟩ := take_drop_exists b 4 (by omega)
    obtain ⟨sz, rfl⟩ := exists_le4 c hc
    exact ⟨t, vt, sz, d, rfl⟩
  | [], h => simp at h

theorem ofNat_of_toInt (sz : I32) (h : 0 ≤ sz.toInt) : BitVec.ofNat 32 sz.toInt.toNat = sz := by
  apply BitVec.eq_of_toNat_eq
  have := sz.isLt
  rw [BitVec.toNat_ofNat, BitVec.toInt_eq_toNat_cond] at *
  split at h <;> omega

/-- Every log data is a sequence of entries, overruns, or is malformed. -/
theorem data_cases (D : List Byte) : (∃ vs, D = viewsBytes vs) ∨ Overrun D ∨ Malformed D := by
  generalize hn : D.length = n
  induction n using Nat.strongRecOn generalizing D with
  | ind n ih =>
    by_cases h0 : D.length = 0
    · exact .inl ⟨[], by simpa [viewsBytes] using h0⟩
    by_cases h13 : D.length < 13
    · exact .inr (.inr ⟨[], D, by simp [viewsBytes], .inl ⟨by omega, h13⟩⟩)
    obtain ⟨t, vt, sz, tail, rfl⟩ := head_split D (by omega)
    by_cases hneg : sz.toInt < 0
    · exact .inr (.inr ⟨[], _, by simp [viewsBytes], .inr ⟨t, vt, sz, tail, rfl, hneg⟩⟩)
    by_cases hov : tail.length < sz.toInt.toNat
    · exact .inr (.inl ⟨[], t, vt, sz, tail, by simp [viewsBytes], by omega, hov⟩)
    obtain ⟨d, tail', rfl, hd⟩ := take_drop_exists tail sz.toInt.toNat (by omega)
    have hsz : sz = BitVec.ofNat 32 d.length := by rw [hd, ofNat_of_toInt sz (by omega)]
    have hcons : ∀ x, le8 t ++ vt :: (le4 sz ++ (d ++ x)) = EView.bytes (t, vt, d) ++ x := by
      intro x; rw [hsz]; simp [EView.bytes, entryBytes]
    have hlt : tail'.length < n := by rw [← hn]; simp; omega
    rcases ih tail'.length hlt tail' rfl with ⟨vs, rfl⟩ | ⟨vs, t', vt', sz', tl, rfl, h1, h2⟩ | ⟨vs, tl, rfl, h1⟩
    · exact .inl ⟨(t, vt, d) :: vs, by rw [viewsBytes_cons, hcons]⟩
    · exact .inr (.inl ⟨(t, vt, d) :: vs, t', vt', sz', tl, by rw [viewsBytes_cons, hcons, List.append_assoc], h1, h2⟩)
    · exact .inr (.inr ⟨(t, vt, d) :: vs, tl, by rw [viewsBytes_cons, hcons, List.append_assoc], h1⟩)

/-- What the loop does with complete entries followed by something else. -/
theorem parseEntries_pre (junk : Byte) (e : Fault) (tail : List Byte)
    (ht : ∀ fuel b pre, Rd b pre tail → 0 < fuel → (parseEntries junk fuel b).1 = .error e) :
    ∀ (vs : List EView) (fuel : Nat) {b pre}, Rd b pre (viewsBytes vs ++ tail) → vs.length < fuel →
      (parseEntries junk fuel b).1 = .error e := by
  intro vs
  induction vs with
  | nil =>
    intro fuel b pre h hf
    exact ht fuel b pre (by simpa [viewsBytes] using h) (by omega)
  | cons v vs ih =>
    intro fuel b pre h hf
    obtain ⟨fuel, rfl⟩ : ∃ k, fuel = k + 1 := ⟨fuel - 1, by simp at hf; omega⟩
    obtain ⟨t, vt, d⟩ := v
    have hlt := h.lt
    rw [viewsBytes_cons] at h hlt
    have hlen : (EView.bytes (t, vt, d)).length = 13 + d.length := entryBytes_length _ _ _
    rw [List.length_append, List.length_append, hlen] at hlt
    simp only [EView.bytes, entryBytes, List.append_assoc, List.cons_append] at h
    obtain ⟨c1, h1, w1⟩ := Rd.getULong _ h
    obtain ⟨c2, h2, w2⟩ := Rd.getByte w1
    obtain ⟨c3, h3, w3⟩ := Rd.getInt _ w2
    obtain ⟨dst, h4, w4⟩ := Rd.alloc junk (n := d.length) (by omega)
    obtain ⟨dst', c5, h5, w5, w6⟩ := w3.getBuf w4 (by simp)
    have h7 := ih fuel w6 (by simp at hf; omega)
    generalize hq : parseEntries junk fuel c5 = q at h7
    obtain ⟨q1, q2⟩ := q
    simp only at h7
    subst h7
    rw [parseEntries, run_bind_ok (run_get b), run_ite, if_pos, run_bind_ok h1, run_bind_ok h2, run_bind_ok h3,
      signExtend_small _ (by omega), h4, run_bind_ok (run_liftExcept_ok _ _), run_bind_ok h5, run_bind_err hq]
    rw [At.size h, At.pos h]; simp; omega

theorem signExtend_nonneg (sz : I32) (h : 0 ≤ sz.toInt) : (sz.signExtend 64).toNat = sz.toInt.toNat := by
  have h1 := sz.isLt
  have h2 : sz.toInt.toNat < 2 ^ 31 := by
    rw [BitVec.toInt_eq_toNat_cond] at *
    split at h <;> omega
  rw [← signExtend_small sz.toInt.toNat h2, ofNat_of_toInt sz h]

theorem signExtend_neg (sz : I32) (h : sz.toInt < 0) : 2 ^ 31 ≤ (sz.signExtend 64).toNat := by
  have h1 := sz.isLt
  have hm : sz.msb = true := by
    rw [BitVec.msb_eq_toInt]; simpa using h
  rw [BitVec.toNat_signExtend, hm, if_pos rfl]
  have : 2 ^ 31 ≤ 2 ^ 64 - 2 ^ 32 := by decide
  omega

theorem parseEntries_over (junk : Byte) (t : U64) (vt : Byte) (sz : I32) (tail : List Byte) (h0 : 0 ≤ sz.toInt)
    (hov : tail.length < sz.toInt.toNat) (fuel : Nat) (b : Buf) (pre : List Byte)
    (h : Rd b pre (le8 t ++ vt :: (le4 sz ++ tail))) (hf : 0 < fuel) : (parseEntries junk fuel b).1 = .error .ub := by
  obtain ⟨fuel, rfl⟩ : ∃ k, fuel = k + 1 := ⟨fuel - 1, by omega⟩
  obtain ⟨c1, h1, w1⟩ := Rd.getULong _ h
  obtain ⟨c2, h2, w2⟩ := Rd.getByte w1
  obtain ⟨c3, h3, w3⟩ := Rd.getInt _ w2
  have hlt : sz.toInt.toNat < 2 ^ 31 := by
    have := sz.isLt
    rw [BitVec.toInt_eq_toNat_cond] at *
    split at h0 <;> omega
  obtain ⟨dst, h4, w4⟩ := Rd.alloc junk (n := sz.toInt.toNat) hlt
  have h5 := getBuf_over w3 w4 (by simp; omega)
  rw [parseEntries, run_bind_ok (run_get b), run_ite, if_pos, run_bind_ok h1, run_bind_ok h2, run_bind_ok h3,
      signExtend_nonneg _ h0, h4, run_bind_ok (run_liftExcept_ok _ _), run_bind_err h5]
  rw [At.size h, At.pos h]; simp; omega

theorem parseEntries_neg (junk : Byte) (t : U64) (vt : Byte) (sz : I32) (tail : List Byte) (h0 : sz.toInt < 0)
    (fuel : Nat) (b : Buf) (pre : List Byte)
    (h : Rd b pre (le8 t ++ vt :: (le4 sz ++ tail))) (hf : 0 < fuel) : (parseEntries junk fuel b).1 = .error .thrown := by
  obtain ⟨fuel, rfl⟩ : ∃ k, fuel = k + 1 := ⟨fuel - 1, by omega⟩
  obtain ⟨c1, h1, w1⟩ := Rd.getULong _ h
  obtain ⟨c2, h2, w2⟩ := Rd.getByte w1
  obtain ⟨c3, h3, w3⟩ := Rd.getInt _ w2
  have h4 : alloc junk (sz.signExtend 64).toNat = .error .thrown := by
    rw [alloc, if_pos]
    have := signExtend_neg sz h0
    omega
  rw [parseEntries, run_bind_ok (run_get b), run_ite, if_pos, run_bind_ok h1, run_bind_ok h2, run_bind_ok h3, h4,
    run_bind_err (run_liftExcept_err _ _)]
  rw [At.size h, At.pos h]; simp; omega

theorem parseEntries_short (junk : Byte) (tail : List Byte) (h0 : 0 < tail.length) (h13 : tail.length < 13)
    (fuel : Nat) (b : Buf) (pre : List Byte) (h : Rd b pre tail) (hf : 0 < fuel) :
    (parseEntries junk fuel b).1 = .error .thrown := by
  obtain ⟨fuel, rfl⟩ : ∃ k, fuel = k + 1 := ⟨fuel - 1, by omega⟩
  rw [parseEntries, run_bind_ok (run_get b), run_ite, if_pos (by rw [At.size h, At.pos h]; simp; omega)]
  by_cases h8 : tail.length < 8
  · rw [run_bind_err (getULong_short h (by simp; omega))]
  obtain ⟨a, c, rfl, ha⟩ := take_drop_exists tail 8 (by omega)
  obtain ⟨t, rfl⟩ := exists_le8 a ha
  obtain ⟨c1, h1, w1⟩ := Rd.getULong _ h
  rw [run_bind_ok h1]
  rw [List.length_append, le8_length] at h13 h8
  match c, w1, h13 with
  | [], w1, _ => rw [run_bind_err (getByte_short w1 (by simp))]
  | vt :: c, w1, h13 =>
    obtain ⟨c2, h2, w2⟩ := Rd.getByte w1
    rw [run_bind_ok h2, run_bind_err (getInt_short w2 (by simp at h13 ⊢; omega))]

theorem parse_overrun (junk : Byte) {D : List Byte} (hD : Overrun D) {b pre} (h : Rd b pre D) {fuel : Nat}
    (hf : D.length < fuel) : (parseEntries junk fuel b).1 = .error .ub := by
  obtain ⟨vs, t, vt, sz, tail, rfl, h1, h2⟩ := hD
  have := views_length_le vs
  rw [List.length_append] at hf
  exact parseEntries_pre junk .ub _ (parseEntries_over junk t vt sz tail h1 h2) vs fuel h (by omega)

theorem parse_malformed (junk : Byte) {D : List Byte} (hD : Malformed D) {b pre} (h : Rd b pre D) {fuel : Nat}
    (hf : D.length < fuel) : (parseEntries junk fuel b).1 = .error .thrown := by
  obtain ⟨vs, tail, rfl, hc⟩ := hD
  have := views_length_le vs
  rw [List.length_append] at hf
  rcases hc with ⟨h1, h2⟩ | ⟨t, vt, sz, tail', rfl, h1⟩
  · exact parseEntries_pre junk .thrown _ (parseEntries_short junk tail h1 h2) vs fuel h (by omega)
  · exact parseEntries_pre junk .thrown _ (parseEntries_neg junk t vt sz tail' h1) vs fuel h (by omega)

/-- Every 45 bytes are the header of some request. -/
theorem header_exists (H : List Byte) (h : H.length = 45) : ∃ (r : Req) (n : I32), r.entries = [] ∧ H = headBytes r n := by
  match H, h with
  | ty :: H, h =>
    rw [List.length_cons] at h
    obtain ⟨a1, H1, rfl, l1⟩ := take_drop_exists H 4 (by omega)
    rw [List.length_append] at h
    obtain ⟨a2, H2, rfl, l2⟩ := take_drop_exists H1 4 (by omega)
    rw [List.length_append] at h
    obtain ⟨a3, H3, rfl, l3⟩ := take_drop_exists H2 8 (by omega)
    rw [List.length_append] at h
    obtain ⟨a4, H4, rfl, l4⟩ := take_drop_exists H3 8 (by omega)
    rw [List.length_append] at h
    obtain ⟨a5, H5, rfl, l5⟩ := take_drop_exists H4 8 (by omega)
    rw [List.length_append] at h
    obtain ⟨a6, H6, rfl, l6⟩ := take_drop_exists H5 8 (by omega)
    rw [List.length_append] at h
    obtain ⟨v1, rfl⟩ := exists_le4 a1 l1
    obtain ⟨v2, rfl⟩ := exists_le4 a2 l2
    obtain ⟨v3, rfl⟩ := exists_le8 a3 l3
    obtain ⟨v4, rfl⟩ := exists_le8 a4 l4
    obtain ⟨v5, rfl⟩ := exists_le8 a5 l5
    obtain ⟨v6, rfl⟩ := exists_le8 a6 l6
    obtain ⟨v7, rfl⟩ := exists_le4 H6 (by omega)
    exact ⟨⟨ty, v1, v2, v3, v4, v5, v6, []⟩, v7, rfl, rfl⟩

theorem receive_bad_size (junk : Byte) (s : Session) (hs : Ready s) (r : Req) (n : I32) (rest : List Byte)
    (hn : n.toInt < 0 ∨ n.toInt > 0x1000000) : receive junk s (headBytes r n ++ rest) = .closed := by
  obtain ⟨d, hd, hh⟩ := hs
  have hhl := headBytes_length r n
  obtain ⟨h0, g0, w0⟩ := recvInto_all hh (bs := headBytes r n) (by rw [hhl, hd])
  obtain ⟨h2, g2, w2⟩ := size_field r _ w0
  rw [receive, if_neg (by simp [hhl, reqHeaderSize]), List.take_left' (by rw [hhl]; rfl),
    List.drop_left' (by rw [hhl]; rfl), g0, onHeader_ok, g2, onSize_ok, if_pos hn]

theorem receive_short (junk : Byte) (s : Session) (hs : Ready s) (r : Req) (n : I32) (rest : List Byte)
    (h0 : 0 ≤ n.toInt) (h1 : n.toInt ≤ 0x1000000) (hl : rest.length < n.toInt.toNat) :
    receive junk s (headBytes r n ++ rest) = .incomplete := by
  obtain ⟨d, hd, hh⟩ := hs
  have hhl := headBytes_length r n
  obtain ⟨c0, g0, w0⟩ := recvInto_all hh (bs := headBytes r n) (by rw [hhl, hd])
  obtain ⟨c2, g2, w2⟩ := size_field r _ w0
  obtain ⟨ld, ga, wa⟩ := Rd.alloc junk (n := n.toInt.toNat) (by omega)
  rw [receive, if_neg (by simp [hhl, reqHeaderSize]), List.take_left' (by rw [hhl]; rfl),
    List.drop_left' (by rw [hhl]; rfl), g0, onHeader_ok, g2, onSize_ok, if_neg (by omega), if_neg (by omega), ga,
    onAlloc_ok, if_pos hl]

theorem onEntries_thrown (r h rest ld) : onEntries r h rest (.error .thrown, ld) = .closed := rfl
theorem onEntries_ub (r h rest ld) : onEntries r h rest (.error .ub, ld) = .ub := rfl

theorem receive_data (junk : Byte) (s : Session) (hs : Ready s) (r : Req) (n : I32) (D rest : List Byte)
    (h0 : 0 < n.toInt) (h1 : n.toInt ≤ 0x1000000) (hl : D.length = n.toInt.toNat) :
    (Overrun D → receive junk s (headBytes r n ++ (D ++ rest)) = .ub) ∧
    (Malformed D → receive junk s (headBytes r n ++ (D ++ rest)) = .closed) := by
  obtain ⟨d, hd, hh⟩ := hs
  have hhl := headBytes_length r n
  obtain ⟨c0, g0, w0⟩ := recvInto_all hh (bs := headBytes r n) (by rw [hhl, hd])
  obtain ⟨c2, g2, w2⟩ := size_field r _ w0
  obtain ⟨ld, ga, wa⟩ := Rd.alloc junk (n := n.toInt.toNat) (by omega)
  obtain ⟨h3, g3, w3⟩ := parseHeader_ok r _ w2
  have wa' : At ld (List.replicate n.toInt.toNat junk) 0 := by simpa [Rd] using wa
  obtain ⟨ld', gb, wb⟩ := recvInto_all wa' (bs := D) (by simp [hl])
  have wb' : Rd (ld'.setPos (min 0 D.length)) [] D := by
    have := seek_at wb 0
    simpa [Rd] using this
  have key : ∀ e, (parseEntries junk (D.length + 1) (ld'.setPos (min 0 D.length))).1 = .error e →
      ∃ x, parseLogData junk ld' = (.error e, x) := by
    intro e he
    generalize hq : parseEntries junk (D.length + 1) (ld'.setPos (min 0 D.length)) = q at he
    obtain ⟨q1, q2⟩ := q
    simp only at he
    subst he
    refine ⟨q2, ?_⟩
    rw [parseLogData, run_bind_ok (seek_run wb 0), run_bind_ok (run_get _), At.size wb', List.nil_append]
    exact hq
  have step : receive junk s (headBytes r n ++ (D ++ rest)) =
      onEntries { r with entries := [] } h3 rest (parseLogData junk ld') := by
    rw [receive, if_neg (by simp [hhl, reqHeaderSize]), List.take_left' (by rw [hhl]; rfl),
      List.drop_left' (by rw [hhl]; rfl), g0, onHeader_ok, g2, onSize_ok, if_neg (by omega), if_neg (by omega), ga,
      onAlloc_ok, if_neg (by rw [List.length_append]; omega), List.take_left' hl, List.drop_left' hl, gb, onData_ok, readComplete, g3,
      onParsed_ok, if_pos h0]
  constructor
  · intro ho
    obtain ⟨x, hx⟩ := key _ (parse_overrun junk ho wb' (by omega))
    rw [step, hx, onEntries_ub]
  · intro ho
    obtain ⟨x, hx⟩ := key _ (parse_malformed junk ho wb' (by omega))
    rw [step, hx, onEntries_thrown]

end Cs.Rpc
