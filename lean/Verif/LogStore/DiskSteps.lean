import Verif.LogStore.DiskLemmas

/-! # `compact` on a file system whose operations can fail: removing a prefix, and the whole call (helper lemmas) -/

namespace Cs.LogStore.Io
open Cs Cs.Buffer Cs.LogStore

theorem overwrite_twice (Z a b : List Byte) (p : Nat) (h : p ≤ Z.length) :
    overwrite (overwrite Z p a) (p + a.length) b = overwrite Z p (a ++ b) := by
  have h1 : p - Z.length = 0 := by omega
  have h2 : (Z.take p).length = p := by simp; omega
  simp only [overwrite, h1, List.replicate_zero, List.append_nil]
  have h3 : (Z.take p ++ a ++ Z.drop (p + a.length)).length ≥ p + a.length := by simp; omega
  rw [show p + a.length - (Z.take p ++ a ++ Z.drop (p + a.length)).length = 0 by omega, List.replicate_zero, List.append_nil]
  rw [List.take_left' (by simp; omega), List.append_assoc (Z.take p ++ a), List.drop_append, List.drop_append]
  simp only [h2, List.length_append, List.drop_drop]
  rw [List.drop_of_length_le (by rw [h2]; omega), List.drop_of_length_le (l := a) (by omega)]
  simp only [List.nil_append, List.append_assoc]
  congr 4
  omega

section
variable {e : Env} {c s0 bs : Nat} {ca : Cache} {dd dt ddb dtb : Option (List Byte)} {td tt tdb ttb : Stream} {last : Nat}

theorem partPos_eq (B : List Ent) : ∀ (q base : Nat) (P T Z : List Byte) (p : Nat), base ≤ q → q + dataSize B < 2 ^ 64 → p ≤ Z.length →
    partPos base B.length ⟨⟨some Z, dd, dt, some (P ++ (idxBytes q B ++ T)), ddb, dtb⟩,
      ⟨⟨some .idx, p, false⟩, td, tt, ⟨some .idxBak, P.length, false⟩, tdb, ttb⟩, c, s0, ca, bs⟩ =
    (.ok (), ⟨⟨some (overwrite Z p (idxBytes (q - base) B)), dd, dt, some (P ++ (idxBytes q B ++ T)), ddb, dtb⟩,
      ⟨⟨some .idx, p + 8 * B.length, false⟩, td, tt, ⟨some .idxBak, P.length + 8 * B.length, false⟩, tdb, ttb⟩, c, s0, ca, bs⟩) := by
  induction B with
  | nil =>
    intro q base P T Z p _ _ hp
    rw [List.length_nil, partPos, run_pure]
    simp only [idxBytes_nil, overwrite]
    simp [show p - Z.length = 0 by omega]
  | cons x B ih =>
    intro q base P T Z p hb hq hp
    simp only [dataSize_cons] at hq
    rw [List.length_cons, partPos, oIdxBak (ru (q := q) (l1 := P) (l2 := idxBytes (q + (9 + x.data.length)) B ++ T) (by omega) (by simp) rfl), oIdx wrt, subU64_eq hb (by omega)]
    have hz : (overwrite Z p (le8 (BitVec.ofNat 64 (q - base)))).length ≥ p + 8 := by
      simp [overwrite]; omega
    have hi := ih (q + (9 + x.data.length)) base (P ++ le8 (BitVec.ofNat 64 q)) T (overwrite Z p (le8 (BitVec.ofNat 64 (q - base)))) (p + 8)
      (by omega) (by omega) hz
    rw [show P ++ le8 (BitVec.ofNat 64 q) ++ (idxBytes (q + (9 + x.data.length)) B ++ T) = P ++ (idxBytes q (x :: B) ++ T) by simp] at hi
    rw [List.length_append, le8_length] at hi
    rw [le8_length, hi]
    have := overwrite_twice Z (le8 (BitVec.ofNat 64 (q - base))) (idxBytes (q + (9 + x.data.length) - base) B) p hp
    rw [le8_length] at this
    rw [this, idxBytes_cons (q - base), show q + (9 + x.data.length) - base = q - base + (9 + x.data.length) by omega,
      show p + 8 + 8 * B.length = p + 8 * (B.length + 1) by omega, show P.length + 8 + 8 * B.length = P.length + 8 * (B.length + 1) by omega]

/-- The end of removing a prefix. -/
theorem partDone_ok {I D bt : List Byte} {ip dp sp : Nat} {dib : Option (List Byte)} {tib : Stream} {s' : Store} (hs : bt.length = 8)
    (hf : fillBuffer ⟨⟨I, ip, false⟩, ⟨D, dp, false⟩, ⟨le8 (BitVec.ofNat 64 (last + 1)), 8, false⟩, c - (last - s0 + 1), last + 1,
      ca.reset (cacheStart (c - (last - s0 + 1)) (last + 1) bs), bs⟩ = (.ok (), s')) :
    ∃ w', partDone last ⟨⟨some I, some D, some bt, dib, ddb, dtb⟩, ⟨⟨some .idx, ip, false⟩, ⟨some .dat, dp, false⟩, ⟨some .sti, sp, false⟩, tib, tdb, ttb⟩,
      c, s0, ca, bs⟩ = (.ok true, w') ∧ w'.store = s' ∧ w'.disk = s'.disk := by
  have ho : overwrite bt 0 (le8 (BitVec.ofNat 64 (last + 1))) = le8 (BitVec.ofNat 64 (last + 1)) := by
    simp [overwrite, hs]
  obtain ⟨⟨i1, i2, i3⟩, ⟨d1, d2, d3⟩, ⟨t1, t2, t3⟩, c', s', ca', bs'⟩ := s'
  rw [partDone, wmod, wmod, wmod]
  simp only [close, Six.at, Six.set]
  rw [oSti (sk (by omega)), oSti wrt, ho, le8_length, wmod, wmod, wmod]
  have hc : ∀ {a1 a2 a3 : Option (List Byte)} {b1 b2 b3 : Stream}, call fillBuffer ⟨⟨some I, some D, some (le8 (BitVec.ofNat 64 (last + 1))), a1, a2, a3⟩,
      ⟨⟨some .idx, ip, false⟩, ⟨some .dat, dp, false⟩, ⟨some .sti, 8, false⟩, b1, b2, b3⟩, c - (last - s0 + 1), last + 1,
      ca.reset (cacheStart (c - (last - s0 + 1)) (last + 1) bs), bs⟩ = (.ok (), ⟨⟨some i1, some d1, some t1, a1, a2, a3⟩,
      ⟨⟨some .idx, i2, i3⟩, ⟨some .dat, d2, d3⟩, ⟨some .sti, t2, t3⟩, b1, b2, b3⟩, c', s', ca', bs'⟩) := by
    intros
    simp only [call, World.store, World.file, World.bytes, World.put, Six.at, Six.set, Option.getD_some, Option.map_some, Option.isNone_some,
      Bool.or_false, hf]
  simp only []
  rw [show (0 : Nat) + 8 = 8 from rfl, run_bind_ok hc, run_pure]
  refine ⟨_, rfl, ?_, ?_⟩
  · simp only [World.store, World.file, World.bytes, Six.at, Option.getD_some, Option.isNone_some, Bool.or_false]
  · simp only [World.disk, Store.disk, Option.getD_some]

/-- The two outcomes of removing a prefix once the data has been moved: `D` is the data file then, `I` and `J` the index file and its backup. -/
theorem partDat_eq {A B : List Ent} {D bt T : List Byte} {ip dp sp jp : Nat} {x : Bool} {I X : List Byte}
    (hs : bt.length = 8) (hI : I = idxBytes 0 (A ++ B)) (hX : X = idxBytes 0 A ++ (idxBytes (dataSize A) B ++ T))
    (hsz : dataSize (A ++ B) < 2 ^ 62) (hl : dataSize B ≤ D.length) :
    ((e.fails 763 = true ∨ e.fails 765 = true ∨ e.fails 786 = true ∨ e.fails 788 = true) →
      ∃ di dd ti td ip' , Idle ti ∧ Idle td ∧
      partDat e last (8 * A.length) (8 * B.length) (dataSize A) (dataSize B)
        ⟨⟨some I, some D, some bt, some X, ddb, dtb⟩, ⟨⟨some .idx, ip, false⟩, ⟨some .dat, dp, x⟩, ⟨some .sti, sp, false⟩, ⟨some .idxBak, jp, false⟩, tdb, ttb⟩, c, s0, ca, bs⟩ =
      (.ok false, ⟨⟨di, dd, some bt, some X, ddb, dtb⟩, ⟨ti, td, ⟨some .sti, sp, false⟩, ⟨some .idxBak, ip', false⟩, tdb, ttb⟩, c, s0, ca, bs⟩)) ∧
    (e.fails 763 = false → e.fails 765 = false → e.fails 786 = false → e.fails 788 = false →
      ∀ s', fillBuffer ⟨⟨idxBytes 0 B, 8 * B.length, false⟩, ⟨D.take (dataSize B), dataSize B, false⟩,
        ⟨le8 (BitVec.ofNat 64 (last + 1)), 8, false⟩, c - (last - s0 + 1), last + 1,
        ca.reset (cacheStart (c - (last - s0 + 1)) (last + 1) bs), bs⟩ = (.ok (), s') →
      ∃ w', partDat e last (8 * A.length) (8 * B.length) (dataSize A) (dataSize B)
        ⟨⟨some I, some D, some bt, some X, ddb, dtb⟩, ⟨⟨some .idx, ip, false⟩, ⟨some .dat, dp, x⟩, ⟨some .sti, sp, false⟩, ⟨some .idxBak, jp, false⟩, tdb, ttb⟩, c, s0, ca, bs⟩ =
      (.ok true, w') ∧ w'.store = s' ∧ w'.disk = s'.disk) := by
  have hcA := count_le_dataSize A
  have hcB := count_le_dataSize B
  simp only [dataSize_append] at hsz
  have hDl : (D.take (dataSize B)).length = dataSize B := by rw [List.length_take]; omega
  have hDr : D.take (dataSize B) ++ List.replicate (dataSize B - D.length) 0 = D.take (dataSize B) := by
    rw [show dataSize B - D.length = 0 by omega, List.replicate_zero, List.append_nil]
  have hov : overwrite I 0 (idxBytes (dataSize A - dataSize A) B) = idxBytes 0 B ++ I.drop (8 * B.length) := by
    rw [Nat.sub_self]; simp [overwrite]
  have hIl : I.length = 8 * A.length + 8 * B.length := by rw [hI]; simp; omega
  have hpos : ∀ {dd dt ddb dtb : Option (List Byte)} {td tt tdb ttb : Stream},
      partPos (dataSize A) B.length ⟨⟨some I, dd, dt, some X, ddb, dtb⟩,
        ⟨⟨some .idx, 0, false⟩, td, tt, ⟨some .idxBak, 8 * A.length, false⟩, tdb, ttb⟩, c, s0, ca, bs⟩ =
      (.ok (), ⟨⟨some (idxBytes 0 B ++ I.drop (8 * B.length)), dd, dt, some X, ddb, dtb⟩,
        ⟨⟨some .idx, 8 * B.length, false⟩, td, tt, ⟨some .idxBak, 8 * A.length + 8 * B.length, false⟩, tdb, ttb⟩, c, s0, ca, bs⟩) := by
    intro dd dt ddb dtb td tt tdb ttb
    rw [hX, ← hov, show 8 * A.length = (idxBytes 0 A).length by simp]
    have := partPos_eq (dd := dd) (dt := dt) (ddb := ddb) (dtb := dtb) (td := td) (tt := tt) (tdb := tdb) (ttb := ttb) (c := c) (s0 := s0) (ca := ca) (bs := bs) B (dataSize A) (dataSize A) (idxBytes 0 A) T I 0 (Nat.le_refl _) (by omega) (by omega)
    rw [Nat.zero_add] at this
    exact this
  have hIt : (idxBytes 0 B ++ I.drop (8 * B.length)).take (8 * B.length) ++
      List.replicate (8 * B.length - (idxBytes 0 B ++ I.drop (8 * B.length)).length) 0 = idxBytes 0 B := by
    rw [List.take_left' (by simp), show 8 * B.length - (idxBytes 0 B ++ I.drop (8 * B.length)).length = 0 by simp, List.replicate_zero, List.append_nil]
  constructor
  · intro h
    rw [partDat, wmod]
    simp only [close, Six.at, Six.set]
    rw [wget]
    cases h1 : e.fails 763
    · simp only [trunc, Six.at, Six.set, h1, Bool.false_eq_true, if_false, if_true]
      rw [wset, wget]
      cases h2 : e.fails 765
      · simp only [openRw, Six.at, Six.set, h2, Option.isSome_none, Bool.or_false, Bool.false_eq_true, if_false, if_true]
        rw [oIdxBak (sk (by omega)), oIdx (sk (by omega)), show 8 * B.length / 8 = B.length by omega, run_bind_ok hpos, partIdx, wmod]
        simp only [close, Six.at, Six.set]
        rw [wget]
        cases h3 : e.fails 786
        · simp only [h1, h2, h3, Bool.false_eq_true, false_or] at h
          simp only [trunc, Six.at, Six.set, h3, Bool.false_eq_true, if_false, if_true]
          rw [wset, wget]
          simp only [openRw, spoil, Six.at, Six.set, h, Option.isSome_none, Bool.false_or, if_true]
          exact ⟨_, _, _, _, _, (by intro _; rfl), (by intro h; cases h), rfl⟩
        · simp only [trunc, Six.at, Six.set, h3, Bool.false_eq_true, if_false, if_true]
          exact ⟨_, _, _, _, _, (by intro h; cases h), (by intro h; cases h), rfl⟩
      · simp only [openRw, spoil, Six.at, Six.set, h2, Option.isSome_none, Bool.false_or, if_true]
        exact ⟨_, _, _, _, _, (by intro h; cases h), (by intro _; rfl), rfl⟩
    · simp only [trunc, Six.at, Six.set, h1, Bool.false_eq_true, if_false, if_true]
      exact ⟨_, _, _, _, _, (by intro h; cases h), (by intro _; rfl), rfl⟩
  · intro h1 h2 h3 h4 s' hf
    rw [partDat, wmod]
    simp only [close, Six.at, Six.set]
    rw [wget]
    simp only [trunc, Six.at, Six.set, h1, Bool.false_eq_true, if_false, if_true]
    rw [wset, wget]
    simp only [openRw, Six.at, Six.set, h2, Option.isSome_none, Bool.or_false, Bool.false_eq_true, if_false, if_true]
    rw [hDr, oIdxBak (sk (by omega)), oIdx (sk (by omega)), show 8 * B.length / 8 = B.length by omega, run_bind_ok hpos, partIdx, wmod]
    simp only [close, Six.at, Six.set]
    rw [wget]
    simp only [trunc, Six.at, Six.set, h3, Bool.false_eq_true, if_false, if_true]
    rw [wset, wget, hIt]
    simp only [openRw, Six.at, Six.set, h4, Option.isSome_none, Bool.or_false, Bool.false_eq_true, if_false, if_true]
    rw [hDl, idxBytes_length]
    exact partDone_ok hs hf

/-- Removing a prefix up to moving the data, with a whole backup. -/
theorem clearPart_whole {A B : List Ent} {bt X T : List Byte} {ip dp sp jp kp : Nat} {dsb : Option (List Byte)} (h759 : e.room 759 = none) (hB : B ≠ [])
    (hsz : dataSize (A ++ B) < 2 ^ 62) (hA : last - s0 + 1 = A.length) :
    ∃ D dp', D.take (dataSize B) = datBytes B ∧ dataSize B ≤ D.length ∧
    clearPart e last ⟨⟨some (idxBytes 0 (A ++ B)), some (datBytes (A ++ B)), some bt, some X, some (datBytes (A ++ B) ++ T), dsb⟩,
      ⟨⟨some .idx, ip, false⟩, ⟨some .dat, dp, false⟩, ⟨some .sti, sp, false⟩, ⟨some .idxBak, jp, false⟩, ⟨some .datBak, kp, false⟩, ttb⟩, c, s0, ca, bs⟩ =
    partDat e last (8 * A.length) (8 * B.length) (dataSize A) (dataSize B)
      ⟨⟨some (idxBytes 0 (A ++ B)), some D, some bt, some X, some (datBytes (A ++ B) ++ T), dsb⟩,
      ⟨⟨some .idx, 8 * (A ++ B).length, false⟩, ⟨some .dat, dp', false⟩, ⟨some .sti, sp, false⟩, ⟨some .idxBak, jp, false⟩,
        ⟨some .datBak, dataSize (A ++ B) + T.length, false⟩, ttb⟩, c, s0, ca, bs⟩ := by
  have hcA := count_le_dataSize A
  have hcB := count_le_dataSize B
  simp only [dataSize_append] at hsz
  obtain ⟨x, B', rfl⟩ := List.exists_cons_of_ne_nil hB
  have hidx : idxBytes 0 (A ++ x :: B') = idxBytes 0 A ++ (le8 (BitVec.ofNat 64 (dataSize A)) ++ idxBytes (dataSize A + (9 + x.data.length)) B') :=
    idx_at rfl
  have hl : (A.length * 8) = (idxBytes 0 A).length := by simp; omega
  have q1 : (idxBytes 0 A).length = 8 * A.length := idxBytes_length _ _
  have q2 : (idxBytes 0 (A ++ x :: B')).length = 8 * A.length + 8 * (x :: B').length := by rw [idxBytes_length, List.length_append]; omega
  have q3 : (datBytes (A ++ x :: B')).length = dataSize A + dataSize (x :: B') := by rw [datBytes_length, dataSize_append]
  have q4 : (datBytes (x :: B')).length = dataSize (x :: B') := datBytes_length _
  refine ⟨overwrite (datBytes (A ++ x :: B')) 0 (datBytes (x :: B') ++ T), dataSize (x :: B') + T.length, ?_, ?_, ?_⟩
  · simp only [overwrite, List.take_zero, List.nil_append, Nat.zero_sub, List.replicate_zero, List.append_assoc]
    rw [List.take_left' q4]
  · simp only [overwrite, List.take_zero, List.nil_append, Nat.zero_sub, List.replicate_zero, List.length_append, datBytes_length]
    omega
  rw [clearPart, wget]
  simp only []
  rw [hA, hl, oIdx (sk (by rw [← hl]; omega)), oIdx (ru (by omega) hidx rfl), oIdx se, oDat se, oIdx tl, oDat tl, oDatBak (sk (by omega)), oDat (sk (by omega)), wmod]
  have hdrop : (datBytes (A ++ x :: B') ++ T).drop (dataSize A) = datBytes (x :: B') ++ T := by
    rw [datBytes_append, List.append_assoc, List.drop_left' (by simp)]
  have hne : (datBytes (x :: B') ++ T).isEmpty = false := by
    have : (datBytes (x :: B') ++ T).length ≠ 0 := by rw [List.length_append, q4]; simp only [dataSize_cons]; omega
    cases h : (datBytes (x :: B') ++ T) with
    | nil => rw [h] at this; exact absurd rfl this
    | cons _ _ => rfl
  simp only [copy, copy.copyPart, World.file, World.bytes, World.put, Six.at, Six.set, Option.getD_some, Option.map_some, Option.isNone_some, Bool.or_false,
    Bool.false_eq_true, if_false, hdrop, partOf_none h759, hne, Nat.lt_irrefl, decide_false, Nat.zero_add]
  rw [subU64_eq (by omega) (by omega), subU64_eq (by omega) (by omega)]
  have e1 : (idxBytes 0 (A ++ x :: B')).length - (idxBytes 0 A).length = 8 * (x :: B').length := by omega
  have e2 : (datBytes (A ++ x :: B')).length - dataSize A = dataSize (x :: B') := by omega
  have e3 : (idxBytes 0 A).length = 8 * A.length := by simp
  have e4 : (idxBytes 0 (A ++ x :: B')).length = 8 * (A ++ x :: B').length := by simp
  have e5 : dataSize A + (datBytes (x :: B') ++ T).length = dataSize (A ++ x :: B') + T.length := by rw [List.length_append, q4, dataSize_append]; omega
  have e6 : (datBytes (x :: B') ++ T).length = dataSize (x :: B') + T.length := by rw [List.length_append, datBytes_length]
  rw [e1, e2, e3, e4, e5, e6]

/-- Removing a prefix up to moving the data, when the backup of the data is not whole: nothing is moved. -/
theorem clearPart_short {A B : List Ent} {bt X Y : List Byte} {ip dp sp jp : Nat} {dsb : Option (List Byte)} (hB : B ≠ [])
    (hsz : dataSize (A ++ B) < 2 ^ 62) (hA : last - s0 + 1 = A.length) :
    clearPart e last ⟨⟨some (idxBytes 0 (A ++ B)), some (datBytes (A ++ B)), some bt, some X, some Y, dsb⟩,
      ⟨⟨some .idx, ip, false⟩, ⟨some .dat, dp, false⟩, ⟨some .sti, sp, false⟩, ⟨some .idxBak, jp, false⟩, ⟨some .datBak, Y.length, true⟩, ttb⟩, c, s0, ca, bs⟩ =
    partDat e last (8 * A.length) (8 * B.length) (dataSize A) (dataSize B)
      ⟨⟨some (idxBytes 0 (A ++ B)), some (datBytes (A ++ B)), some bt, some X, some Y, dsb⟩,
      ⟨⟨some .idx, 8 * (A ++ B).length, false⟩, ⟨some .dat, 0, true⟩, ⟨some .sti, sp, false⟩, ⟨some .idxBak, jp, false⟩,
        ⟨some .datBak, Y.length, true⟩, ttb⟩, c, s0, ca, bs⟩ := by
  have hcA := count_le_dataSize A
  have hcB := count_le_dataSize B
  simp only [dataSize_append] at hsz
  obtain ⟨x, B', rfl⟩ := List.exists_cons_of_ne_nil hB
  have hidx : idxBytes 0 (A ++ x :: B') = idxBytes 0 A ++ (le8 (BitVec.ofNat 64 (dataSize A)) ++ idxBytes (dataSize A + (9 + x.data.length)) B') :=
    idx_at rfl
  have hl : (A.length * 8) = (idxBytes 0 A).length := by simp; omega
  have q1 : (idxBytes 0 A).length = 8 * A.length := idxBytes_length _ _
  have q2 : (idxBytes 0 (A ++ x :: B')).length = 8 * A.length + 8 * (x :: B').length := by rw [idxBytes_length, List.length_append]; omega
  have q3 : (datBytes (A ++ x :: B')).length = dataSize A + dataSize (x :: B') := by rw [datBytes_length, dataSize_append]
  have q4 : (datBytes (x :: B')).length = dataSize (x :: B') := datBytes_length _
  rw [clearPart, wget]
  simp only []
  rw [hA, hl, oIdx (sk (by rw [← hl]; omega)), oIdx (ru (by omega) hidx rfl), oIdx se, oDat se, oIdx tl, oDat tl, oDatBak skBad, oDat (sk (by omega)), wmod]
  have hp : partOf e 759 [] = [] := by rw [partOf]; split <;> simp
  have ho : ∀ b : List Byte, overwrite b 0 [] = b := by intro b; simp [overwrite]
  simp only [copy, copy.copyPart, World.file, World.bytes, World.put, Six.at, Six.set, Option.getD_some, Option.map_some, Option.isNone_some, Bool.or_false,
    Bool.false_eq_true, if_false, List.drop_length, hp, ho, List.isEmpty_nil, Bool.true_or, List.length_nil, Nat.add_zero]
  rw [subU64_eq (by omega) (by omega), subU64_eq (by omega) (by omega)]
  have e1 : (idxBytes 0 (A ++ x :: B')).length - (idxBytes 0 A).length = 8 * (x :: B').length := by omega
  have e2 : (datBytes (A ++ x :: B')).length - dataSize A = dataSize (x :: B') := by omega
  have e3 : (idxBytes 0 A).length = 8 * A.length := by simp
  have e4 : (idxBytes 0 (A ++ x :: B')).length = 8 * (A ++ x :: B').length := by simp
  rw [e1, e2, e3, e4]

end

end Cs.LogStore.Io
