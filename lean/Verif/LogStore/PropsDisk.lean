import Verif.LogStore.DiskSteps
import Verif.LogStore.Props

/-!
# C98, C99: compactions during which calls of the file system fail

`Io.compact e i (World.of s ..)` is `compact(i)` of the store `s`, in a directory in which backups of earlier compactions may be left,
while the calls named by `e` fail. `World.store` is the store object afterwards, `World.disk` are its files.
-/

namespace Cs.LogStore.Io
open Cs Cs.Buffer Cs.LogStore

/-- The backups can be opened, fs_log_store.cxx 666-689. -/
def Env.Backs (e : Env) : Prop := ∀ n, 666 ≤ n → n ≤ 689 → e.fails n = false

/-- There is room for the backups and for the data that is moved. -/
def Env.Room (e : Env) : Prop := e.room 697 = none ∧ e.room 698 = none ∧ e.room 699 = none ∧ e.room 759 = none

/-- One of the calls fails that change the files of the store: those of 706-742 when no entry is left, those of 744-790 otherwise. -/
def Env.Hits (e : Env) (l : Log) (i : Nat) : Prop :=
  if l.next ≤ i + 1 then e.fails 711 = true ∨ e.fails 713 = true ∨ e.fails 715 = true ∨ e.fails 717 = true ∨ e.fails 719 = true ∨ e.fails 721 = true
  else e.fails 763 = true ∨ e.fails 765 = true ∨ e.fails 786 = true ∨ e.fails 788 = true

/-- None of the calls that are to restore the files fails, fs_log_store.cxx 810-849. -/
def Env.Restores (e : Env) : Prop := ∀ n, 810 ≤ n → n ≤ 849 → e.fails n = false

/-! ## The parts of the call -/

section
variable {e : Env} {s : Store} {l : Log} {i : Nat} {oi od ot : Option (List Byte)}

theorem overwrite_zero (x b : List Byte) : overwrite x 0 b = b ++ x.drop b.length := by
  simp [overwrite]

/-- The start of the call: either a backup cannot be opened, or the files are copied. -/
theorem compact_start {l : Log} {C : List Ent} {ip dp sp f bs : Nat} (hi : l.start ≤ i) :
    (∃ w', Io.compact e i (World.of (repStore l C ip dp sp f bs) oi od ot) = (.ok false, w') ∧ w'.store = repStore l C 0 0 0 f bs ∧
      w'.disk = (repStore l C ip dp sp f bs).disk ∧ ¬ e.Backs) ∨
    ∃ xi xd xt, (rmOf e 662 oi = none → xi = []) ∧ (rmOf e 663 od = none → xd = []) ∧ (rmOf e 664 ot = none → xt = []) ∧
      ¬ (e.fails 667 = true ∧ e.fails 672 = true ∨ e.fails 675 = true ∧ e.fails 680 = true ∨ e.fails 683 = true ∧ e.fails 688 = true) ∧
      Io.compact e i (World.of (repStore l C ip dp sp f bs) oi od ot) = work e i
        ⟨⟨some (idxBytes 0 l.ents), some (datBytes l.ents), some (le8 (BitVec.ofNat 64 l.start)), some (overwrite xi 0 (partOf e 697 (idxBytes 0 l.ents))),
          some (overwrite xd 0 (partOf e 698 (datBytes l.ents))), some (overwrite xt 0 (partOf e 699 (le8 (BitVec.ofNat 64 l.start))))⟩,
        ⟨⟨some .idx, (idxBytes 0 l.ents).length, false⟩, ⟨some .dat, (datBytes l.ents).length, false⟩, ⟨some .sti, (le8 (BitVec.ofNat 64 l.start)).length, false⟩,
          ⟨some .idxBak, (partOf e 697 (idxBytes 0 l.ents)).length, shortOf e 697 (idxBytes 0 l.ents)⟩,
          ⟨some .datBak, (partOf e 698 (datBytes l.ents)).length, shortOf e 698 (datBytes l.ents)⟩,
          ⟨some .stiBak, (partOf e 699 (le8 (BitVec.ofNat 64 l.start))).length, shortOf e 699 (le8 (BitVec.ofNat 64 l.start))⟩⟩,
        l.ents.length, l.start, ⟨f, C.drop (f - l.start), bs⟩, bs⟩ := by
  have key : ∀ o l1 l2 l3 old, (bakOf e l1 l2 l3 o old).2.bad = true ∧ ¬ (e.fails l1 = false ∧ e.fails l2 = false ∧ e.fails l3 = false) ∨
      ∃ x, bakOf e l1 l2 l3 o old = (some x, ⟨some o, 0, false⟩) ∧ (old = none → x = []) ∧ ¬ (e.fails l1 = true ∧ e.fails l3 = true) := by
    intro o l1 l2 l3 old
    unfold bakOf
    cases old <;> cases e.fails l1 <;> cases e.fails l2 <;> cases e.fails l3 <;> simp
  have h0 : Io.compact e i (World.of (repStore l C ip dp sp f bs) oi od ot) = (do
      prepare e
      let b ← get
      if b.str.idxBak.bad || b.str.datBak.bad || b.str.stiBak.bad then pure false
      else do
        save e
        work e i : M World Bool) (World.of (repStore l C ip dp sp f bs) oi od ot) := by
    rw [Io.compact, wget, if_neg (show ¬ i < (World.of (repStore l C ip dp sp f bs) oi od ot).start from Nat.not_lt.2 hi)]
  have hp := prepare_eq (e := e) (oi := oi) (od := od) (ot := ot) (bi := idxBytes 0 l.ents) (bd := datBytes l.ents) (bt := le8 (BitVec.ofNat 64 l.start))
    (ip := ip) (dp := dp) (sp := sp) (c := l.ents.length) (s0 := l.start) (ca := ⟨f, C.drop (f - l.start), bs⟩) (bs := bs)
  rw [h0, run_bind_ok hp, wget]
  rcases key .idxBak 667 670 672 (rmOf e 662 oi) with ⟨k1, n1⟩ | ⟨xi, k1, m1, n1⟩
  · left
    simp only [k1, Bool.true_or, if_true]
    exact ⟨_, rfl, rfl, rfl, fun h => n1 ⟨h _ (by omega) (by omega), h _ (by omega) (by omega), h _ (by omega) (by omega)⟩⟩
  rcases key .datBak 675 678 680 (rmOf e 663 od) with ⟨k2, n2⟩ | ⟨xd, k2, m2, n2⟩
  · left
    simp only [k2, Bool.true_or, Bool.or_true, if_true]
    exact ⟨_, rfl, rfl, rfl, fun h => n2 ⟨h _ (by omega) (by omega), h _ (by omega) (by omega), h _ (by omega) (by omega)⟩⟩
  rcases key .stiBak 683 686 688 (rmOf e 664 ot) with ⟨k3, n3⟩ | ⟨xt, k3, m3, n3⟩
  · left
    simp only [k3, Bool.or_true, if_true]
    exact ⟨_, rfl, rfl, rfl, fun h => n3 ⟨h _ (by omega) (by omega), h _ (by omega) (by omega), h _ (by omega) (by omega)⟩⟩
  right
  simp only [k1, k2, k3, Bool.or_false, Bool.false_eq_true, if_false]
  rw [run_bind_ok save_eq]
  refine ⟨xi, xd, xt, m1, m2, m3, ?_, rfl⟩
  rintro (h | h | h)
  · exact n1 h
  · exact n2 h
  · exact n3 h

/-- What the files are compacted to, or that this is given up. -/
theorem work_ok {l : Log} {C : List Ent} {xi xd xt : List Byte} {f bs ip dp sp jp kp rp : Nat} {z : Bool} (hi : l.start ≤ i) (hf : l.Fits)
    (h759 : e.room 759 = none) (hz : l.ents ≠ [] → z = false) {zi zd : Bool} (hzi : l.ents ≠ [] → zi = false) (hzd : l.ents ≠ [] → zd = false) :
    (e.Hits l i → ∃ di dd ti td tib tdb jp' kp', Idle ti ∧ Idle td ∧ tib = Stream.mk (some .idxBak) jp' zi ∧ tdb = Stream.mk (some .datBak) kp' zd ∧
      ((e.fails 711 = true ∨ e.fails 713 = true) → l.next ≤ i + 1 → dd = some (datBytes l.ents)) ∧
      work e i ⟨⟨some (idxBytes 0 l.ents), some (datBytes l.ents), some (le8 (BitVec.ofNat 64 l.start)), some (idxBytes 0 l.ents ++ xi), some (datBytes l.ents ++ xd), some xt⟩,
        ⟨⟨some .idx, ip, false⟩, ⟨some .dat, dp, false⟩, ⟨some .sti, sp, false⟩, ⟨some .idxBak, jp, zi⟩, ⟨some .datBak, kp, zd⟩, ⟨some .stiBak, rp, z⟩⟩,
        l.ents.length, l.start, ⟨f, C.drop (f - l.start), bs⟩, bs⟩ =
      restore e ⟨⟨di, dd, some (le8 (BitVec.ofNat 64 l.start)), some (idxBytes 0 l.ents ++ xi), some (datBytes l.ents ++ xd), some xt⟩,
        ⟨ti, td, ⟨some .sti, sp, false⟩, tib, tdb, ⟨some .stiBak, rp, z⟩⟩, l.ents.length, l.start, ⟨f, C.drop (f - l.start), bs⟩, bs⟩) ∧
    (¬ e.Hits l i → 1 ≤ bs → i + 1 < 2 ^ 62 → ∀ ip0 dp0 sp0, ∃ w', work e i
        ⟨⟨some (idxBytes 0 l.ents), some (datBytes l.ents), some (le8 (BitVec.ofNat 64 l.start)), some (idxBytes 0 l.ents ++ xi), some (datBytes l.ents ++ xd), some xt⟩,
        ⟨⟨some .idx, ip, false⟩, ⟨some .dat, dp, false⟩, ⟨some .sti, sp, false⟩, ⟨some .idxBak, jp, zi⟩, ⟨some .datBak, kp, zd⟩, ⟨some .stiBak, rp, z⟩⟩,
        l.ents.length, l.start, ⟨f, C.drop (f - l.start), bs⟩, bs⟩ = (.ok true, w') ∧
      LogStore.compact i (repStore l C ip0 dp0 sp0 f bs) = (.ok true, w'.store) ∧ w'.disk = w'.store.disk) := by
  have hnext : l.next = l.start + l.ents.length := rfl
  obtain ⟨hf1, hf2, hf3⟩ := hf
  by_cases hall : l.next ≤ i + 1
  · have hall' : l.start + l.ents.length - 1 ≤ i := by omega
    constructor
    · intro hh
      rw [Env.Hits, if_pos hall] at hh
      obtain ⟨di, dd, ti, td, h1, h2, h3, h4⟩ := clearAll_break (last := i) (bi := idxBytes 0 l.ents) (bd := datBytes l.ents) (bt := le8 (BitVec.ofNat 64 l.start))
        (xi := some (idxBytes 0 l.ents ++ xi)) (xd := some (datBytes l.ents ++ xd)) (xt := some xt) (ip := ip) (dp := dp) (sp := sp)
        (ui := ⟨some .idxBak, jp, zi⟩) (ud := ⟨some .datBak, kp, zd⟩) (ut := ⟨some .stiBak, rp, z⟩) (c := l.ents.length) (s0 := l.start)
        (ca := ⟨f, C.drop (f - l.start), bs⟩) (bs := bs) hh
      refine ⟨di, dd, ti, td, _, _, jp, kp, h1, h2, rfl, rfl, fun h _ => h3 h, ?_⟩
      rw [work, wget]
      simp only []
      rw [if_pos hall', run_bind_ok h4]
      rfl
    · intro hh hb hn ip0 dp0 sp0
      rw [Env.Hits, if_pos hall] at hh
      simp only [not_or, Bool.not_eq_true] at hh
      obtain ⟨g1, g2, g3, g4, g5, g6⟩ := hh
      rw [work, wget]
      simp only []
      rw [if_pos hall', run_bind_ok (clearAll_ok g1 g2 g3 g4 g5 g6 (by simp)), compact_all hi hall']
      exact ⟨_, rfl, rfl, rfl⟩
  · have hall' : ¬ l.start + l.ents.length - 1 ≤ i := by omega
    have hne : l.ents ≠ [] := by intro h; rw [h] at hnext; simp at hnext; omega
    obtain rfl := hz hne
    obtain rfl := hzi hne
    obtain rfl := hzd hne
    obtain ⟨st0, ents⟩ := l
    obtain ⟨A, B, hAB, hA, hB⟩ : ∃ A B, ents = A ++ B ∧ ents.take (i + 1 - st0) = A ∧ ents.drop (i + 1 - st0) = B :=
      ⟨_, _, (List.take_append_drop _ _).symm, rfl, rfl⟩
    have hAl : A.length = i + 1 - st0 := by rw [← hA]; simp only [List.length_take] at *; omega
    simp only at hi hnext hf1 hf2 hf3 hall' hall
    subst hAB
    have hlen : (A ++ B).length = A.length + B.length := List.length_append
    have hBne : B ≠ [] := by
      intro h
      have h0 : B.length = 0 := by rw [h]; rfl
      omega
    obtain ⟨D, dp', hD1, hD2, hrun⟩ := clearPart_whole (e := e) (last := i) (s0 := st0) (A := A) (B := B) (bt := le8 (BitVec.ofNat 64 st0)) (X := idxBytes 0 (A ++ B) ++ xi) (T := xd)
      (ip := ip) (dp := dp) (sp := sp) (jp := jp) (kp := kp) (dsb := some xt) (ttb := ⟨some .stiBak, rp, false⟩) (c := (A ++ B).length)
      (ca := ⟨f, C.drop (f - st0), bs⟩) (bs := bs) h759 hBne (by omega) (by omega)
    obtain ⟨hbr, hok⟩ := partDat_eq (e := e) (c := (A ++ B).length) (s0 := st0) (bs := bs) (ca := ⟨f, C.drop (f - st0), bs⟩) (ddb := some (datBytes (A ++ B) ++ xd)) (dtb := some xt)
      (tdb := ⟨some .datBak, dataSize (A ++ B) + xd.length, false⟩) (ttb := ⟨some .stiBak, rp, false⟩) (last := i) (A := A) (B := B) (D := D) (bt := le8 (BitVec.ofNat 64 st0)) (T := xi)
      (ip := 8 * (A ++ B).length) (dp := dp') (sp := sp) (jp := jp) (x := false) (I := idxBytes 0 (A ++ B)) (X := idxBytes 0 (A ++ B) ++ xi)
      (by simp) rfl (by rw [idxBytes_append]; simp) (by omega) hD2
    constructor
    · intro hh
      rw [Env.Hits, if_neg hall] at hh
      obtain ⟨di, dd, ti, td, ip', h1, h2, h3⟩ := hbr hh
      refine ⟨di, dd, ti, td, _, _, ip', dataSize (A ++ B) + xd.length, h1, h2, rfl, rfl, fun _ h => absurd h (by omega), ?_⟩
      rw [work, wget]
      simp only []
      rw [if_neg hall', run_bind_ok (hrun.trans h3)]
      rfl
    · intro hh hb hn ip0 dp0 sp0
      rw [Env.Hits, if_neg hall] at hh
      simp only [not_or, Bool.not_eq_true] at hh
      obtain ⟨g1, g2, g3, g4⟩ := hh
      obtain ⟨s', k1, k2, k3⟩ := Rep.fill (l := ⟨i + 1, B⟩) (ip := (idxBytes 0 B).length) (dp := (datBytes B).length) (sp := 8) hb
        ⟨by simp only [dataSize_append] at *; omega, by simp only [Log.next]; omega, by simp⟩
      obtain ⟨w', w1, w2, w3⟩ := hok g1 g2 g3 g4 s' (by
        rw [hD1, show (A ++ B).length - (i - st0 + 1) = B.length by omega, Cache.reset]
        simp only [idxBytes_length, datBytes_length] at k1
        exact k1)
      refine ⟨w', ?_, ?_, ?_⟩
      · rw [work, wget]
        simp only []
        rw [if_neg hall', run_bind_ok (hrun.trans w1)]
        rfl
      · rw [w2]
        exact compact_part hi hAl hBne (by omega) k1
      · rw [w2, w3]

end

/-- A store whose data file takes no writes appends nothing. -/
theorem append_closed {s : Store} (h : s.dat.bad = true) (x : Ent) (k : Nat) : (append x s).1 ≠ .ok k := by
  obtain ⟨⟨ib, ip, ibad⟩, ⟨db, dp, _⟩, st, c, s0, ca, bs⟩ := s
  cases h
  have h1 : ∃ f', seekEnd (⟨ib, ip, ibad⟩ : File) = (.ok (), f') := ⟨_, rfl⟩
  obtain ⟨f1, h1⟩ := h1
  have h2 : seekEnd (⟨db, dp, true⟩ : File) = (.ok (), ⟨db, dp, true⟩) := rfl
  have h3 : ∃ p, tell (⟨db, dp, true⟩ : File) = (.ok p, ⟨db, dp, true⟩) := ⟨_, rfl⟩
  obtain ⟨p, h3⟩ := h3
  have h4 : ∀ bs, write bs (⟨db, dp, true⟩ : File) = (.error .thrown, ⟨db, dp, true⟩) := fun bs => by
    rw [write, run_bind_ok (run_get _)]; rfl
  rw [append, bIdx h1, bDat h2, bDat h3]
  cases hw : write (le8 (BitVec.ofNat 64 p)) f1 with
  | mk r f2 =>
    cases r with
    | error er => rw [eIdx hw]; exact fun h => by cases h
    | ok u =>
      rw [bIdx hw]
      cases hs : serialize x with
      | error er => rw [run_bind_err (show lift (Except.error er) (⟨f2, ⟨db, dp, true⟩, st, c, s0, ca, bs⟩ : Store) = (.error er, ⟨f2, ⟨db, dp, true⟩, st, c, s0, ca, bs⟩) from rfl)]; exact fun h => by cases h
      | ok bs' => rw [run_bind_ok (show lift (Except.ok bs') (⟨f2, ⟨db, dp, true⟩, st, c, s0, ca, bs⟩ : Store) = (.ok bs', ⟨f2, ⟨db, dp, true⟩, st, c, s0, ca, bs⟩) from rfl), eDat (h4 _)]; exact fun h => by cases h

/-- The files a compaction that was given up leaves: no data, an empty index, no start index. -/
theorem open_lost (b : Int) (hb : b ≠ 0) : ∃ t, openOn ⟨[], [], []⟩ b = .ok t ∧ Shows t Log.empty := by
  obtain ⟨t, h1, h2⟩ := open_new b hb
  exact ⟨t, h1, h2.1.shows⟩

/-! ## C98: a compaction that fails leaves the log as it was -/

/-- C98 fails: when any of the calls fails that change the files, although everything could be copied to the backups and none of the
calls fails that are to restore the files, `compact` throws; the files of every store hold an empty log that begins at 1, the
backup of the data is empty, and the store takes no further entries. -/
theorem C98_not_restored {s : Store} {l : Log} (h : Reach s l) {e : Env} {i : Nat} (hi : l.start ≤ i) (oi od ot : Option (List Byte))
    (hb : e.Backs) (hr : e.Room) (hh : e.Hits l i) (hs : e.Restores) :
    ∃ w', Io.compact e i (World.of s oi od ot) = (.error .thrown, w') ∧ w'.dir.dat = none ∧ w'.dir.datBak = some [] ∧
      (∀ b, b ≠ 0 → ∃ t, openOn w'.disk b = .ok t ∧ Shows t Log.empty) ∧ ∀ x k, (append x w'.store).1 ≠ .ok k := by
  have hfits := h.rep.fits
  obtain ⟨ip, dp, sp, f, bs, rfl, hw, hbs, -, -⟩ := h.rep.parts
  obtain ⟨r1, r2, r3, r4⟩ := hr
  rcases compact_start (e := e) (C := l.ents) (ip := ip) (dp := dp) (sp := sp) (f := f) (bs := bs) (oi := oi) (od := od) (ot := ot) hi with
    ⟨w', -, -, -, hn⟩ | ⟨xi, xd, xt, -, -, -, -, h2⟩
  · exact absurd hb hn
  rw [partOf_none r1, partOf_none r2, partOf_none r3, shortOf_none r1, shortOf_none r2, shortOf_none r3, overwrite_zero, overwrite_zero] at h2
  have hz1 : l.ents ≠ [] → (idxBytes 0 l.ents).isEmpty = false := by
    intro hne
    obtain ⟨x, B, hx⟩ := List.exists_cons_of_ne_nil hne
    rw [hx]; rfl
  have hz2 : l.ents ≠ [] → (datBytes l.ents).isEmpty = false := by
    intro hne
    obtain ⟨x, B, hx⟩ := List.exists_cons_of_ne_nil hne
    rw [hx]; rfl
  obtain ⟨di, dd, ti, td, tib, tdb, jp', kp', k1, k2, rfl, rfl, -, k3⟩ := (work_ok (e := e) (i := i) (C := l.ents) (f := f) (bs := bs)
    (ip := (idxBytes 0 l.ents).length) (dp := (datBytes l.ents).length) (sp := (le8 (BitVec.ofNat 64 l.start)).length)
    (jp := (idxBytes 0 l.ents).length) (kp := (datBytes l.ents).length) (rp := (le8 (BitVec.ofNat 64 l.start)).length)
    (xi := xi.drop (idxBytes 0 l.ents).length) (xd := xd.drop (datBytes l.ents).length) (xt := overwrite xt 0 (le8 (BitVec.ofNat 64 l.start)))
    (z := (le8 (BitVec.ofNat 64 l.start)).isEmpty) hi hfits r4 (fun _ => rfl) hz1 hz2).1 hh
  rw [k3] at h2
  obtain ⟨w', g1, g2, g3, g4, g5, g6, -⟩ := restore_lost (e := e) (di := di) (dd := dd) (dt := some (le8 (BitVec.ofNat 64 l.start)))
    (xi := idxBytes 0 l.ents ++ xi.drop (idxBytes 0 l.ents).length) (xd := datBytes l.ents ++ xd.drop (datBytes l.ents).length)
    (xt := overwrite xt 0 (le8 (BitVec.ofNat 64 l.start))) (tt := ⟨some .sti, (le8 (BitVec.ofNat 64 l.start)).length, false⟩)
    (pi := jp') (pd := kp') (pt := (le8 (BitVec.ofNat 64 l.start)).length) (zi := (idxBytes 0 l.ents).isEmpty) (zd := (datBytes l.ents).isEmpty)
    (zt := (le8 (BitVec.ofNat 64 l.start)).isEmpty) (c := l.ents.length) (s0 := l.start) (ca := ⟨f, l.ents.drop (f - l.start), bs⟩) (bs := bs)
    k1 k2 (fun h => nomatch h) (hs _ (by omega) (by omega))
  refine ⟨w', h2.trans g1, g2, g3 (hs _ (by omega) (by omega)), fun b hb => ?_, fun x k => append_closed ?_ x k⟩
  · rw [World.disk, g2, g5 (hs _ (by omega) (by omega)), g6 (hs _ (by omega) (by omega))]
    exact open_lost b hb
  · simp only [World.store, World.file, Six.at, g4, Bool.true_or]

/-- The environment in which the given lines fail. -/
def failing (ls : List Nat) : Env := ⟨fun n => ls.contains n, fun _ => none⟩

example : ∃ s w', Reach s ⟨1, [e3, e3, e1]⟩ ∧ Io.compact (failing [763]) 1 (World.of s none none none) = (.error .thrown, w') ∧
    ∃ t, openOn w'.disk 5 = .ok t ∧ (Op.run .nextSlot t).1 = .ok (.nat 1) := by
  obtain ⟨s, h, -⟩ := reach_three
  obtain ⟨w', h1, -, -, h2, -⟩ := C98_not_restored h (e := failing [763]) (i := 1) (by decide) none none none
    (by intro n h1 h2; simp [failing]; omega) ⟨rfl, rfl, rfl, rfl⟩ (by rw [Env.Hits, if_neg (by decide)]; exact .inl rfl)
    (by intro n h1 h2; simp [failing]; omega)
  obtain ⟨t, g1, g2⟩ := h2 5 (by decide)
  exact ⟨s, w', h, h1, t, g1, g2.1⟩

/-- C98 (partial): when a backup can neither be opened nor, once created, be opened again, `compact` returns false and the log is as it
was, in the store and in the files. What is missing: `C98_not_restored`. -/
theorem C98_noBackup_partial {s : Store} {l : Log} (h : Reach s l) {e : Env} {i : Nat} (hi : l.start ≤ i) (oi od ot : Option (List Byte))
    (hb : e.fails 667 = true ∧ e.fails 672 = true ∨ e.fails 675 = true ∧ e.fails 680 = true ∨ e.fails 683 = true ∧ e.fails 688 = true) :
    ∃ w', Io.compact e i (World.of s oi od ot) = (.ok false, w') ∧ Shows w'.store l ∧ w'.disk = s.disk ∧
      (∀ x, Log.Fits ⟨l.start, l.ents ++ [x]⟩ → (append x w'.store).1 = .ok l.next) := by
  have hfits := h.rep.fits
  obtain ⟨ip, dp, sp, f, bs, rfl, hw, hbs, -, -⟩ := h.rep.parts
  rcases compact_start (e := e) (C := l.ents) (ip := ip) (dp := dp) (sp := sp) (f := f) (bs := bs) (oi := oi) (od := od) (ot := ot) hi with
    ⟨w', h1, h2, h3, -⟩ | ⟨xi, xd, xt, -, -, -, hn, -⟩
  · have hr : Rep w'.store l l.ents := by rw [h2]; exact Rep.mk' 0 0 0 rfl hw hbs hfits
    refine ⟨w', h1, hr.shows, h3, fun x hx => ?_⟩
    obtain ⟨a, s', g1, g2, -⟩ := step_append hr x hx
    rw [g1, g2]
  · exact absurd hb hn

example : ∃ s w', Reach s ⟨1, [e3, e3, e1]⟩ ∧ Io.compact (failing [675, 680]) 1 (World.of s none (some [7]) none) = (.ok false, w') ∧
    Shows w'.store ⟨1, [e3, e3, e1]⟩ := by
  obtain ⟨s, h, -⟩ := reach_three
  obtain ⟨w', h1, h2, -⟩ := C98_noBackup_partial h (e := failing [675, 680]) (i := 1) (by decide) none (some [7]) none (.inr (.inl ⟨rfl, rfl⟩))
  exact ⟨s, w', h, h1, h2⟩

/-- C98 (partial): an index below the first one is refused, and nothing is touched. -/
theorem C98_range_partial {s : Store} {l : Log} (h : Reach s l) (e : Env) {i : Nat} (hi : i < l.start) (oi od ot : Option (List Byte)) :
    Io.compact e i (World.of s oi od ot) = (.error .thrown, World.of s oi od ot) := by
  rw [Io.compact, wget, if_pos (show i < (World.of s oi od ot).start by rw [show (World.of s oi od ot).start = s.start from rfl, h.rep.start]; exact hi)]
  rfl

example : ∃ s, Reach s ⟨1, [e3, e3, e1]⟩ ∧ (Io.compact (failing []) 0 (World.of s none none none)).1 = .error .thrown := by
  obtain ⟨s, h, -⟩ := reach_three
  exact ⟨s, h, by rw [C98_range_partial h (failing []) (i := 0) (by decide)]⟩

/-- C98 (partial): the one way in which the files come through a failed compaction: the whole log is to be removed, the data file cannot be
removed (711 or 713 fails, and again 818), and nothing else fails. The store object takes no entries nevertheless. -/
theorem C98_kept_partial {s : Store} {l : Log} (h : Reach s l) {e : Env} {i : Nat} (hi : l.next ≤ i + 1) (hne : l.ents ≠ []) (oi od ot : Option (List Byte))
    (hb : ∀ n, n ≤ 700 → e.fails n = false) (hr : ∀ n, e.room n = none) (hd : e.fails 711 = true ∨ e.fails 713 = true)
    (h818 : e.fails 818 = true) (hs : ∀ n, 819 ≤ n → n ≤ 849 → e.fails n = false) :
    ∃ w', Io.compact e i (World.of s oi od ot) = (.ok false, w') ∧ w'.disk = s.disk ∧ ∀ x k, (append x w'.store).1 ≠ .ok k := by
  have hfits := h.rep.fits
  have hpos : 0 < l.ents.length := List.length_pos_iff.2 hne
  have hi' : l.start ≤ i := by simp only [Log.next] at hi; omega
  obtain ⟨ip, dp, sp, f, bs, rfl, hw, hbs, -, -⟩ := h.rep.parts
  rcases compact_start (e := e) (C := l.ents) (ip := ip) (dp := dp) (sp := sp) (f := f) (bs := bs) (oi := oi) (od := od) (ot := ot) hi' with
    ⟨w', -, -, -, hn⟩ | ⟨xi, xd, xt, e1, e2, e3, -, h2⟩
  · exact absurd (fun n _ h => hb n (by omega)) hn
  obtain rfl := e1 (by rw [rmOf, hb _ (by omega)]; rfl)
  obtain rfl := e2 (by rw [rmOf, hb _ (by omega)]; rfl)
  obtain rfl := e3 (by rw [rmOf, hb _ (by omega)]; rfl)
  rw [partOf_none (hr _), partOf_none (hr _), partOf_none (hr _), shortOf_none (hr _), shortOf_none (hr _), shortOf_none (hr _), overwrite_zero, overwrite_zero,
    overwrite_zero, List.drop_nil, List.drop_nil, List.drop_nil] at h2
  obtain ⟨x, B, hx⟩ := List.exists_cons_of_ne_nil hne
  have hz1 : (idxBytes 0 l.ents).isEmpty = false := by rw [hx]; rfl
  have hz2 : (datBytes l.ents).isEmpty = false := by rw [hx]; rfl
  have hz3 : (le8 (BitVec.ofNat 64 l.start)).isEmpty = false := rfl
  rw [hz1, hz2, hz3] at h2
  obtain ⟨di, dd, ti, td, tib, tdb, jp', kp', k1, k2, rfl, rfl, k4, k3⟩ := (work_ok (e := e) (i := i) (C := l.ents) (f := f) (bs := bs)
    (ip := (idxBytes 0 l.ents).length) (dp := (datBytes l.ents).length) (sp := (le8 (BitVec.ofNat 64 l.start)).length)
    (jp := (idxBytes 0 l.ents).length) (kp := (datBytes l.ents).length) (rp := (le8 (BitVec.ofNat 64 l.start)).length)
    (xi := []) (xd := []) (xt := le8 (BitVec.ofNat 64 l.start) ++ []) (z := false) (zi := false) (zd := false)
    hi' hfits (hr _) (fun _ => rfl) (fun _ => rfl) (fun _ => rfl)).1
    (by rw [Env.Hits, if_pos hi]; rcases hd with h | h
        · exact .inl h
        · exact .inr (.inl h))
  obtain rfl := k4 hd hi
  rw [k3] at h2
  obtain ⟨w', g1, g2, g3, g4, g5, -⟩ := restore_kept (e := e) (di := di) (bd := datBytes l.ents) (dt := some (le8 (BitVec.ofNat 64 l.start)))
    (xi := idxBytes 0 l.ents ++ []) (xd := datBytes l.ents ++ []) (xt := le8 (BitVec.ofNat 64 l.start) ++ [])
    (tt := ⟨some .sti, (le8 (BitVec.ofNat 64 l.start)).length, false⟩) (pi := jp') (pd := kp') (pt := (le8 (BitVec.ofNat 64 l.start)).length) (zd := false)
    (c := l.ents.length) (s0 := l.start) (ca := ⟨f, l.ents.drop (f - l.start), bs⟩) (bs := bs)
    k1 k2 (fun h => nomatch h) h818 (hs _ (by omega) (by omega)) (hs _ (by omega) (by omega)) (hs _ (by omega) (by omega)) (hs _ (by omega) (by omega))
    (hs _ (by omega) (by omega)) (hs _ (by omega) (by omega)) (hr _) (hr _)
  refine ⟨w', h2.trans g1, ?_, fun x k => append_closed ?_ x k⟩
  · rw [World.disk, g2, g3, g4, List.append_nil, List.append_nil]; rfl
  · simp only [World.store, World.file, Six.at, g5, Bool.true_or]

example : ∃ s w', Reach s ⟨1, [e3, e3, e1]⟩ ∧ Io.compact (failing [711, 818]) 7 (World.of s none none none) = (.ok false, w') ∧ w'.disk = s.disk := by
  obtain ⟨s, h, -⟩ := reach_three
  obtain ⟨w', h1, h2, -⟩ := C98_kept_partial h (e := failing [711, 818]) (i := 7) (by decide) (by decide) none none none
    (by intro n h1; simp [failing]; omega) (fun _ => rfl) (.inl rfl) rfl (by intro n h1 h2; simp [failing]; omega)
  exact ⟨s, w', h, h1, h2⟩

/-! ## C99: a compaction that reports success has removed exactly the entries up to the index -/

theorem bind_ne {σ α β : Type} {m : M σ α} {k : α → M σ β} {b : β} {s : σ} (h : ∀ a t, (k a t).1 ≠ .ok b) : ((m >>= k) s).1 ≠ .ok b := by
  cases hm : m s with
  | mk r t =>
    cases r with
    | error er => rw [run_bind_err hm]; exact fun h => by cases h
    | ok a => rw [run_bind_ok hm]; exact h a t

theorem restore_not_true (e : Env) (w : World) : (restore e w).1 ≠ .ok true := by
  rw [restore]
  refine bind_ne fun _ t => ?_
  rw [wget]
  split
  · exact fun h => by cases h
  · exact bind_ne fun _ _ => bind_ne fun _ _ => bind_ne fun _ _ => bind_ne fun _ _ => bind_ne fun _ _ => bind_ne fun _ _ => fun h => by cases h

/-- C99 (partial): whatever calls fail, as long as there is room on the disk: if `compact` returns true, the store and its files are
those of a compaction without failures, so that exactly the entries up to `i` are gone. What is missing: `C99_not_whole`. -/
theorem C99_success_partial {s : Store} {l : Log} (h : Reach s l) {e : Env} {i : Nat} (hf : i + 1 < 2 ^ 62) (oi od ot : Option (List Byte)) (hr : e.Room)
    {w' : World} (hw' : Io.compact e i (World.of s oi od ot) = (.ok true, w')) :
    l.start ≤ i ∧ Reach w'.store (l.dropTo i) ∧ Shows w'.store (l.dropTo i) ∧ w'.disk = w'.store.disk := by
  by_cases hi : l.start ≤ i
  case neg => rw [C98_range_partial h e (by omega)] at hw'; cases hw'
  have hfits := h.rep.fits
  have h0 := h
  obtain ⟨ip, dp, sp, f, bs, rfl, hw, hbs, -, -⟩ := h.rep.parts
  obtain ⟨r1, r2, r3, r4⟩ := hr
  rcases compact_start (e := e) (C := l.ents) (ip := ip) (dp := dp) (sp := sp) (f := f) (bs := bs) (oi := oi) (od := od) (ot := ot) hi with
    ⟨w1, hn, -⟩ | ⟨xi, xd, xt, -, -, -, -, h2⟩
  · rw [hn] at hw'; cases hw'
  rw [partOf_none r1, partOf_none r2, partOf_none r3, shortOf_none r1, shortOf_none r2, shortOf_none r3, overwrite_zero, overwrite_zero] at h2
  have hz1 : l.ents ≠ [] → (idxBytes 0 l.ents).isEmpty = false := by
    intro hne
    obtain ⟨x, B, hx⟩ := List.exists_cons_of_ne_nil hne
    rw [hx]; rfl
  have hz2 : l.ents ≠ [] → (datBytes l.ents).isEmpty = false := by
    intro hne
    obtain ⟨x, B, hx⟩ := List.exists_cons_of_ne_nil hne
    rw [hx]; rfl
  have hk := work_ok (e := e) (i := i) (C := l.ents) (f := f) (bs := bs)
    (ip := (idxBytes 0 l.ents).length) (dp := (datBytes l.ents).length) (sp := (le8 (BitVec.ofNat 64 l.start)).length)
    (jp := (idxBytes 0 l.ents).length) (kp := (datBytes l.ents).length) (rp := (le8 (BitVec.ofNat 64 l.start)).length)
    (xi := xi.drop (idxBytes 0 l.ents).length) (xd := xd.drop (datBytes l.ents).length) (xt := overwrite xt 0 (le8 (BitVec.ofNat 64 l.start)))
    (z := (le8 (BitVec.ofNat 64 l.start)).isEmpty) hi hfits r4 (fun _ => rfl) hz1 hz2
  by_cases hh : e.Hits l i
  · obtain ⟨di, dd, ti, td, tib, tdb, jp', kp', -, -, -, -, -, k3⟩ := hk.1 hh
    have := restore_not_true e ⟨⟨di, dd, some (le8 (BitVec.ofNat 64 l.start)), some (idxBytes 0 l.ents ++ xi.drop (idxBytes 0 l.ents).length),
        some (datBytes l.ents ++ xd.drop (datBytes l.ents).length), some (overwrite xt 0 (le8 (BitVec.ofNat 64 l.start)))⟩,
        ⟨ti, td, ⟨some .sti, (le8 (BitVec.ofNat 64 l.start)).length, false⟩, tib, tdb, ⟨some .stiBak, (le8 (BitVec.ofNat 64 l.start)).length, (le8 (BitVec.ofNat 64 l.start)).isEmpty⟩⟩,
        l.ents.length, l.start, ⟨f, l.ents.drop (f - l.start), bs⟩, bs⟩
    rw [← k3, ← h2, hw'] at this
    exact absurd rfl this
  · obtain ⟨w1, k1, k2, k3⟩ := hk.2 hh hbs hf ip dp sp
    rw [k1, hw'] at h2
    cases h2
    obtain ⟨a, s', g1, rfl, g2, -⟩ := step_compact h0.rep i hi hf
    rw [k2] at g1
    cases g1
    have hre : Reach w'.store (l.dropTo i) :=
      .step (op := .compact i) (r := .bool true) h0 ⟨hi, hf⟩ (by rw [Op.run, wrap, k2]) ⟨rfl, rfl⟩
    exact ⟨hi, hre, hre.rep.shows, k3⟩

/-- C99 (partial): and it does return true when no call fails. -/
theorem C99_returns_partial {s : Store} {l : Log} (h : Reach s l) {e : Env} {i : Nat} (hi : l.start ≤ i) (hf : i + 1 < 2 ^ 62) (oi od ot : Option (List Byte))
    (hn : ∀ n, e.fails n = false) (hr : e.Room) : ∃ w', Io.compact e i (World.of s oi od ot) = (.ok true, w') ∧ Shows w'.store (l.dropTo i) := by
  have h0 := h
  have hfits := h.rep.fits
  obtain ⟨ip, dp, sp, f, bs, rfl, hw, hbs, -, -⟩ := h.rep.parts
  have hr0 := hr
  obtain ⟨r1, r2, r3, r4⟩ := hr
  rcases compact_start (e := e) (C := l.ents) (ip := ip) (dp := dp) (sp := sp) (f := f) (bs := bs) (oi := oi) (od := od) (ot := ot) hi with
    ⟨w1, -, -, -, hb⟩ | ⟨xi, xd, xt, -, -, -, -, h2⟩
  · exact absurd (fun n _ _ => hn n) hb
  rw [partOf_none r1, partOf_none r2, partOf_none r3, shortOf_none r1, shortOf_none r2, shortOf_none r3, overwrite_zero, overwrite_zero] at h2
  have hz1 : l.ents ≠ [] → (idxBytes 0 l.ents).isEmpty = false := by
    intro hne
    obtain ⟨x, B, hx⟩ := List.exists_cons_of_ne_nil hne
    rw [hx]; rfl
  have hz2 : l.ents ≠ [] → (datBytes l.ents).isEmpty = false := by
    intro hne
    obtain ⟨x, B, hx⟩ := List.exists_cons_of_ne_nil hne
    rw [hx]; rfl
  obtain ⟨w1, k1, -, -⟩ := (work_ok (e := e) (i := i) (C := l.ents) (f := f) (bs := bs)
    (ip := (idxBytes 0 l.ents).length) (dp := (datBytes l.ents).length) (sp := (le8 (BitVec.ofNat 64 l.start)).length)
    (jp := (idxBytes 0 l.ents).length) (kp := (datBytes l.ents).length) (rp := (le8 (BitVec.ofNat 64 l.start)).length)
    (xi := xi.drop (idxBytes 0 l.ents).length) (xd := xd.drop (datBytes l.ents).length) (xt := overwrite xt 0 (le8 (BitVec.ofNat 64 l.start)))
    (z := (le8 (BitVec.ofNat 64 l.start)).isEmpty) hi hfits r4 (fun _ => rfl) hz1 hz2).2
    (by rw [Env.Hits]; split <;> simp [hn]) hbs hf ip dp sp
  exact ⟨w1, h2.trans k1, (C99_success_partial h0 hf oi od ot hr0 (h2.trans k1)).2.2.1⟩

example : ∃ s w', Reach s ⟨1, [e3, e3, e1]⟩ ∧ Io.compact (failing []) 2 (World.of s (some [1]) none none) = (.ok true, w') ∧ Shows w'.store ⟨3, [e1]⟩ ∧
    w'.disk = w'.store.disk := by
  obtain ⟨s, h, -⟩ := reach_three
  obtain ⟨w', h1, h2⟩ := C99_returns_partial h (e := failing []) (i := 2) (by decide) (by decide) (some [1]) none none (fun _ => rfl) ⟨rfl, rfl, rfl, rfl⟩
  exact ⟨s, w', h, h1, h2, (C99_success_partial h (by decide) _ _ _ ⟨rfl, rfl, rfl, rfl⟩ h1).2.2.2⟩

theorem idxBytes_same {n : Nat} : ∀ (A B : List Ent) (b : Nat), A.length = B.length → (∀ x ∈ A, x.data.length = n) → (∀ x ∈ B, x.data.length = n) →
    idxBytes b A = idxBytes b B
  | [], [], _, _, _, _ => rfl
  | x :: A, y :: B, b, h, hA, hB => by
    rw [idxBytes_cons, idxBytes_cons, hA x (by simp), hB y (by simp),
      idxBytes_same A B _ (by simpa using h) (fun z hz => hA z (by simp [hz])) (fun z hz => hB z (by simp [hz]))]

theorem dataSize_same {n : Nat} : ∀ (A : List Ent), (∀ x ∈ A, x.data.length = n) → dataSize A = A.length * (9 + n)
  | [], _ => by simp [dataSize]
  | x :: A, h => by
    rw [dataSize_cons, h x (by simp), dataSize_same A (fun y hy => h y (by simp [hy])), List.length_cons, Nat.add_mul]; omega

/-- C99 fails: when the disk has no room for the whole backup of the data and no call fails, `compact` returns true although nothing was
moved: the entries behind `i` are replaced by the first ones of the log, also for a store that is opened on the files. (Stated for
entries of the same size.) -/
theorem C99_not_whole {s : Store} {l : Log} (h : Reach s l) {e : Env} {i n k : Nat} (hi : l.start ≤ i) (hi' : i + 1 < l.next) (hn : ∀ x ∈ l.ents, x.data.length = n)
    (oi od ot : Option (List Byte)) (hb : ∀ n, e.fails n = false) (hr : e.room 697 = none) (hk : e.room 698 = some k) (hk' : k < dataSize l.ents) :
    ∃ w', Io.compact e i (World.of s oi od ot) = (.ok true, w') ∧ Shows w'.store ⟨i + 1, l.ents.take (l.next - (i + 1))⟩ ∧
      ∀ b, b ≠ 0 → ∃ t, openOn w'.disk b = .ok t ∧ Shows t ⟨i + 1, l.ents.take (l.next - (i + 1))⟩ := by
  have hfits := h.rep.fits
  obtain ⟨ip, dp, sp, f, bs, rfl, hw, hbs, -, -⟩ := h.rep.parts
  rcases compact_start (e := e) (C := l.ents) (ip := ip) (dp := dp) (sp := sp) (f := f) (bs := bs) (oi := oi) (od := od) (ot := ot) hi with
    ⟨w', -, -, -, hn⟩ | ⟨xi, xd, xt, e1, e2, e3, -, h2⟩
  · exact absurd (fun n _ _ => hb n) hn
  obtain rfl := e1 (by rw [rmOf, hb _]; rfl)
  obtain rfl := e2 (by rw [rmOf, hb _]; rfl)
  obtain rfl := e3 (by rw [rmOf, hb _]; rfl)
  obtain ⟨hf1, hf2, hf3⟩ := hfits
  have hnext : l.next = l.start + l.ents.length := rfl
  obtain ⟨st0, ents⟩ := l
  obtain ⟨A, B, hAB, hA, hB⟩ : ∃ A B, ents = A ++ B ∧ ents.take (i + 1 - st0) = A ∧ ents.drop (i + 1 - st0) = B :=
    ⟨_, _, (List.take_append_drop _ _).symm, rfl, rfl⟩
  have hAl : A.length = i + 1 - st0 := by rw [← hA]; simp only [List.length_take] at *; omega
  simp only at hi hnext hf1 hf2 hf3 hn hk'
  subst hAB
  have hlen : (A ++ B).length = A.length + B.length := List.length_append
  have hBne : B ≠ [] := by
    intro h
    have h0 : B.length = 0 := by rw [h]; rfl
    omega
  have hk2 : (partOf e 698 (datBytes (A ++ B))).length = k := by
    rw [partOf, hk]; simp only [List.length_take, datBytes_length]; omega
  have hk3 : shortOf e 698 (datBytes (A ++ B)) = true := by
    rw [shortOf, hk2]; simp only [datBytes_length, hk', decide_true, Bool.or_true]
  have hix : (idxBytes 0 (A ++ B)).isEmpty = false := by
    obtain ⟨x, B', hx⟩ := List.exists_cons_of_ne_nil (show A ++ B ≠ [] by simp [hBne])
    rw [hx]; rfl
  have hov : ∀ b : List Byte, overwrite [] 0 b = b := by intro b; simp [overwrite]
  rw [partOf_none hr, shortOf_none hr, hk3, hix, hov, hov, hov] at h2
  have hsm : idxBytes 0 ((A ++ B).take B.length) = idxBytes 0 B :=
    idxBytes_same _ _ 0 (by simp) (fun x hx => hn x (List.mem_of_mem_take hx)) (fun x hx => hn x (by simp [hx]))
  have hsz : dataSize ((A ++ B).take B.length) = dataSize B := by
    rw [dataSize_same _ (fun x hx => hn x (List.mem_of_mem_take hx)), dataSize_same B (fun x hx => hn x (by simp [hx]))]; simp
  have hD : (datBytes (A ++ B)).take (dataSize B) = datBytes ((A ++ B).take B.length) := by
    conv => lhs; rw [← List.take_append_drop B.length (A ++ B), datBytes_append, ← hsz, ← datBytes_length]
    rw [List.take_left]
  obtain ⟨s', k1, k2, k3⟩ := Rep.fill (l := ⟨i + 1, (A ++ B).take B.length⟩) (ip := (idxBytes 0 B).length) (dp := dataSize B) (sp := 8) hbs
    ⟨by simp only [hsz, dataSize_append] at *; omega, by simp only [Log.next, List.length_take] at *; omega, by simp⟩
  have hrun := clearPart_short (e := e) (last := i) (s0 := st0) (A := A) (B := B) (bt := le8 (BitVec.ofNat 64 st0)) (X := idxBytes 0 (A ++ B))
    (Y := partOf e 698 (datBytes (A ++ B))) (ip := (idxBytes 0 (A ++ B)).length) (dp := (datBytes (A ++ B)).length) (sp := (le8 (BitVec.ofNat 64 st0)).length)
    (jp := (idxBytes 0 (A ++ B)).length) (dsb := some (partOf e 699 (le8 (BitVec.ofNat 64 st0))))
    (ttb := ⟨some .stiBak, (partOf e 699 (le8 (BitVec.ofNat 64 st0))).length, shortOf e 699 (le8 (BitVec.ofNat 64 st0))⟩) (c := (A ++ B).length)
    (ca := ⟨f, (A ++ B).drop (f - st0), bs⟩) (bs := bs) hBne (by omega) (by omega)
  obtain ⟨w', w1, w2, w3⟩ := (partDat_eq (e := e) (c := (A ++ B).length) (s0 := st0) (bs := bs) (ca := ⟨f, (A ++ B).drop (f - st0), bs⟩)
    (ddb := some (partOf e 698 (datBytes (A ++ B)))) (dtb := some (partOf e 699 (le8 (BitVec.ofNat 64 st0))))
    (tdb := ⟨some .datBak, (partOf e 698 (datBytes (A ++ B))).length, true⟩)
    (ttb := ⟨some .stiBak, (partOf e 699 (le8 (BitVec.ofNat 64 st0))).length, shortOf e 699 (le8 (BitVec.ofNat 64 st0))⟩) (last := i) (A := A) (B := B)
    (D := datBytes (A ++ B)) (bt := le8 (BitVec.ofNat 64 st0)) (T := [])
    (ip := 8 * (A ++ B).length) (dp := 0) (sp := (le8 (BitVec.ofNat 64 st0)).length) (jp := (idxBytes 0 (A ++ B)).length) (x := true)
    (I := idxBytes 0 (A ++ B)) (X := idxBytes 0 (A ++ B))
    (by simp) rfl (by rw [idxBytes_append]; simp) (by omega) (by rw [datBytes_length, dataSize_append]; omega)).2 (hb _) (hb _) (hb _) (hb _) s' (by
      rw [hD, show (A ++ B).length - (i - st0 + 1) = B.length by omega, Cache.reset]
      simp only [hsm, idxBytes_length, List.length_take, show min B.length (A ++ B).length = B.length by omega] at k1
      exact k1)
  have htk : Log.next ⟨st0, A ++ B⟩ - (i + 1) = B.length := by rw [hnext]; omega
  rw [htk]
  refine ⟨w', h2.trans ?_, ?_, ?_⟩
  · rw [work, wget]
    simp only []
    rw [if_neg (by omega), run_bind_ok (hrun.trans w1)]
    rfl
  · rw [w2]; exact k2.shows
  · intro b hb0
    obtain ⟨t, t1, t2⟩ := open_ok k2.fits b hb0
    refine ⟨t, ?_, t2.1.shows⟩
    rw [w3, Store.disk, k2.idx, k2.dat, k2.sti]
    exact t1

/-- There is a reachable store with two different entries of the same size. -/
theorem reach_same : ∃ s, Reach s ⟨1, [e1, ⟨7, 1, [4]⟩]⟩ := by
  obtain ⟨s0, h0, -⟩ := open_new 1 (by decide)
  have r0 := Reach.new (b := 1) (by decide) h0
  obtain ⟨r, s1, l1, -, h2, h3⟩ := C14_step_partial r0 (.append e1) (by exact ⟨by decide, by decide, by decide⟩)
  obtain rfl := h2.2
  obtain ⟨r, s2, l2, -, h4, h5⟩ := C14_step_partial h3 (.append ⟨7, 1, [4]⟩) (by exact ⟨by decide, by decide, by decide⟩)
  obtain rfl := h4.2
  exact ⟨s2, h5⟩

example : ∃ s w', Reach s ⟨1, [e1, ⟨7, 1, [4]⟩]⟩ ∧ Io.compact ⟨fun _ => false, fun n => if n = 698 then some 4 else none⟩ 1 (World.of s none none none) = (.ok true, w') ∧
    (Op.run (.entryAt 2) w'.store).1 = .ok (.ent (some e1)) := by
  obtain ⟨s, h⟩ := reach_same
  obtain ⟨w', h1, h2, -⟩ := C99_not_whole h (e := ⟨fun _ => false, fun n => if n = 698 then some 4 else none⟩) (i := 1) (n := 1) (k := 4) (by decide) (by decide)
    (by decide) none none none (fun _ => rfl) rfl rfl (by decide)
  exact ⟨s, w', h, h1, h2.2.2.2.1 2 (by decide)⟩

end Cs.LogStore.Io
