import Verif.LogStore.Disk
import Verif.LogStore.Steps4

/-! # `compact` on a file system whose operations can fail (helper lemmas) -/

namespace Cs.LogStore.Io
open Cs Cs.Buffer Cs.LogStore

section
variable {α β : Type} {c s0 bs : Nat} {ca : Cache}
variable {di dd ds dib ddb dsb : Option (List Byte)} {ti td ts tib tdb tsb : Stream} {b b' : List Byte} {p p' : Nat} {x x' : Bool}

theorem oIdx {m : M File α} {k : α → M World β} {a : α} (h : m ⟨b, p, false⟩ = (.ok a, ⟨b', p', x'⟩)) :
    (on .idx m >>= k) ⟨⟨some b, dd, ds, dib, ddb, dsb⟩, ⟨⟨some .idx, p, false⟩, td, ts, tib, tdb, tsb⟩, c, s0, ca, bs⟩ =
      k a ⟨⟨some b', dd, ds, dib, ddb, dsb⟩, ⟨⟨some .idx, p', x'⟩, td, ts, tib, tdb, tsb⟩, c, s0, ca, bs⟩ := by
  refine run_bind_ok ?_
  rw [on]
  simp only [World.file, World.bytes, World.put, Six.at, Six.set, Option.getD_some, Option.map_some, Option.isNone_some, Bool.or_false, h]

theorem oDat {m : M File α} {k : α → M World β} {a : α} (h : m ⟨b, p, false⟩ = (.ok a, ⟨b', p', x'⟩)) :
    (on .dat m >>= k) ⟨⟨di, some b, ds, dib, ddb, dsb⟩, ⟨ti, ⟨some .dat, p, false⟩, ts, tib, tdb, tsb⟩, c, s0, ca, bs⟩ =
      k a ⟨⟨di, some b', ds, dib, ddb, dsb⟩, ⟨ti, ⟨some .dat, p', x'⟩, ts, tib, tdb, tsb⟩, c, s0, ca, bs⟩ := by
  refine run_bind_ok ?_
  rw [on]
  simp only [World.file, World.bytes, World.put, Six.at, Six.set, Option.getD_some, Option.map_some, Option.isNone_some, Bool.or_false, h]

theorem oSti {m : M File α} {k : α → M World β} {a : α} (h : m ⟨b, p, false⟩ = (.ok a, ⟨b', p', x'⟩)) :
    (on .sti m >>= k) ⟨⟨di, dd, some b, dib, ddb, dsb⟩, ⟨ti, td, ⟨some .sti, p, false⟩, tib, tdb, tsb⟩, c, s0, ca, bs⟩ =
      k a ⟨⟨di, dd, some b', dib, ddb, dsb⟩, ⟨ti, td, ⟨some .sti, p', x'⟩, tib, tdb, tsb⟩, c, s0, ca, bs⟩ := by
  refine run_bind_ok ?_
  rw [on]
  simp only [World.file, World.bytes, World.put, Six.at, Six.set, Option.getD_some, Option.map_some, Option.isNone_some, Bool.or_false, h]

theorem oIdxBak {m : M File α} {k : α → M World β} {a : α} (h : m ⟨b, p, x⟩ = (.ok a, ⟨b', p', x'⟩)) :
    (on .idxBak m >>= k) ⟨⟨di, dd, ds, some b, ddb, dsb⟩, ⟨ti, td, ts, ⟨some .idxBak, p, x⟩, tdb, tsb⟩, c, s0, ca, bs⟩ =
      k a ⟨⟨di, dd, ds, some b', ddb, dsb⟩, ⟨ti, td, ts, ⟨some .idxBak, p', x'⟩, tdb, tsb⟩, c, s0, ca, bs⟩ := by
  refine run_bind_ok ?_
  rw [on]
  simp only [World.file, World.bytes, World.put, Six.at, Six.set, Option.getD_some, Option.map_some, Option.isNone_some, Bool.or_false, h]

theorem oDatBak {m : M File α} {k : α → M World β} {a : α} (h : m ⟨b, p, x⟩ = (.ok a, ⟨b', p', x'⟩)) :
    (on .datBak m >>= k) ⟨⟨di, dd, ds, dib, some b, dsb⟩, ⟨ti, td, ts, tib, ⟨some .datBak, p, x⟩, tsb⟩, c, s0, ca, bs⟩ =
      k a ⟨⟨di, dd, ds, dib, some b', dsb⟩, ⟨ti, td, ts, tib, ⟨some .datBak, p', x'⟩, tsb⟩, c, s0, ca, bs⟩ := by
  refine run_bind_ok ?_
  rw [on]
  simp only [World.file, World.bytes, World.put, Six.at, Six.set, Option.getD_some, Option.map_some, Option.isNone_some, Bool.or_false, h]

/-- A failed stream stays where it is. -/
theorem skBad {q : Nat} : seek q ⟨b, p, true⟩ = (.ok (), ⟨b, p, true⟩) := rfl

theorem wget {k : World → M World β} {w : World} : (get >>= k) w = k w w := rfl
theorem wmod {g : World → World} {k : PUnit → M World β} {w : World} : (modify g >>= k) w = k ⟨⟩ (g w) := rfl
theorem wset {k : PUnit → M World β} {v w : World} : (set v >>= k) w = k ⟨⟩ v := rfl

end

/-- One backup once it has been tried to open it: `st` is its stream, `x` its content. -/
def Tried (o : Path) (x : Option (List Byte)) (st : Stream) : Prop :=
  st.bad = true ∨ st = ⟨some o, 0, false⟩ ∧ x.isSome

/-- Content and stream of a backup after opening it. -/
def bakOf (e : Env) (l1 l2 l3 : Nat) (o : Path) (old : Option (List Byte)) : Option (List Byte) × Stream :=
  if old.isSome && !e.fails l1 then (old, ⟨some o, 0, false⟩)
  else if e.fails l2 then (old, if old.isSome && !e.fails l3 then ⟨some o, 0, false⟩ else ⟨none, 0, true⟩)
  else (some [], if e.fails l3 then ⟨none, 0, true⟩ else ⟨some o, 0, false⟩)

theorem bakOf_tried (e : Env) (l1 l2 l3 : Nat) (o : Path) (old : Option (List Byte)) :
    Tried o (bakOf e l1 l2 l3 o old).1 (bakOf e l1 l2 l3 o old).2 := by
  unfold bakOf Tried
  cases old <;> cases e.fails l1 <;> cases e.fails l2 <;> cases e.fails l3 <;> simp

theorem bakOf_ok {e : Env} {l1 l2 l3 : Nat} {o : Path} {old : Option (List Byte)} (h1 : e.fails l1 = false) (h2 : e.fails l2 = false)
    (h3 : e.fails l3 = false) : bakOf e l1 l2 l3 o old = (some (old.getD []), ⟨some o, 0, false⟩) := by
  unfold bakOf
  cases old <;> simp [h1, h2, h3]

theorem openBak_eq (e : Env) (l1 l2 l3 : Nat) (o : Path) (w : World) (hf : w.str.at o = .fresh) :
    openBak e l1 l2 l3 o w = { w with
      dir := w.dir.set (bakOf e l1 l2 l3 o (w.dir.at o)).1 o, str := w.str.set (bakOf e l1 l2 l3 o (w.dir.at o)).2 o } := by
  obtain ⟨⟨di, dd, ds, dib, ddb, dsb⟩, ⟨ti, td, ts, tib, tdb, tsb⟩, c, s0, ca, bs⟩ := w
  cases o <;> simp only [Six.at] at hf <;> subst hf <;> simp only [Six.at]
  · cases di <;> cases h1 : e.fails l1 <;> cases h2 : e.fails l2 <;> cases h3 : e.fails l3 <;>
      simp [openBak, bakOf, openRw, openOut, close, spoil, Six.at, Six.set, Stream.fresh, h1, h2, h3]
  · cases dd <;> cases h1 : e.fails l1 <;> cases h2 : e.fails l2 <;> cases h3 : e.fails l3 <;>
      simp [openBak, bakOf, openRw, openOut, close, spoil, Six.at, Six.set, Stream.fresh, h1, h2, h3]
  · cases ds <;> cases h1 : e.fails l1 <;> cases h2 : e.fails l2 <;> cases h3 : e.fails l3 <;>
      simp [openBak, bakOf, openRw, openOut, close, spoil, Six.at, Six.set, Stream.fresh, h1, h2, h3]
  · cases dib <;> cases h1 : e.fails l1 <;> cases h2 : e.fails l2 <;> cases h3 : e.fails l3 <;>
      simp [openBak, bakOf, openRw, openOut, close, spoil, Six.at, Six.set, Stream.fresh, h1, h2, h3]
  · cases ddb <;> cases h1 : e.fails l1 <;> cases h2 : e.fails l2 <;> cases h3 : e.fails l3 <;>
      simp [openBak, bakOf, openRw, openOut, close, spoil, Six.at, Six.set, Stream.fresh, h1, h2, h3]
  · cases dsb <;> cases h1 : e.fails l1 <;> cases h2 : e.fails l2 <;> cases h3 : e.fails l3 <;>
      simp [openBak, bakOf, openRw, openOut, close, spoil, Six.at, Six.set, Stream.fresh, h1, h2, h3]

/-- Content of a file after `remove`. -/
def rmOf (e : Env) (line : Nat) (old : Option (List Byte)) : Option (List Byte) := if e.fails line then old else none

theorem remove_eq (e : Env) (line : Nat) (p : Path) (w : World) :
    (remove e line p w).2 = { w with dir := w.dir.set (rmOf e line (w.dir.at p)) p } := by
  obtain ⟨⟨di, dd, ds, dib, ddb, dsb⟩, str, c, s0, ca, bs⟩ := w
  cases p <;> simp only [Six.at, remove, rmOf, Six.set] <;> cases e.fails line <;> simp
  · cases di <;> simp
  · cases dd <;> simp
  · cases ds <;> simp
  · cases dib <;> simp
  · cases ddb <;> simp
  · cases dsb <;> simp

section
variable {e : Env} {c s0 bs : Nat} {ca : Cache} {bi bd bt : List Byte} {ip dp sp : Nat} {oi od ot : Option (List Byte)}

theorem prepare_eq : prepare e (World.of ⟨⟨bi, ip, false⟩, ⟨bd, dp, false⟩, ⟨bt, sp, false⟩, c, s0, ca, bs⟩ oi od ot) =
    (.ok (), ⟨⟨some bi, some bd, some bt, (bakOf e 667 670 672 .idxBak (rmOf e 662 oi)).1,
        (bakOf e 675 678 680 .datBak (rmOf e 663 od)).1, (bakOf e 683 686 688 .stiBak (rmOf e 664 ot)).1⟩,
      ⟨⟨some .idx, 0, false⟩, ⟨some .dat, 0, false⟩, ⟨some .sti, 0, false⟩, (bakOf e 667 670 672 .idxBak (rmOf e 662 oi)).2,
        (bakOf e 675 678 680 .datBak (rmOf e 663 od)).2, (bakOf e 683 686 688 .stiBak (rmOf e 664 ot)).2⟩, c, s0, ca, bs⟩) := by
  rw [prepare, World.of]
  simp only []
  rw [oIdx (sk (by omega)), oDat (sk (by omega)), oSti (sk (by omega)), wmod, remove_eq, wmod, remove_eq, wmod, remove_eq, wmod, wmod,
    openBak_eq _ _ _ _ _ _ rfl, wmod, openBak_eq _ _ _ _ _ _ rfl, run_modify, openBak_eq _ _ _ _ _ _ rfl]
  rfl

theorem partOf_none {line : Nat} {rest : List Byte} (h : e.room line = none) : partOf e line rest = rest := by rw [partOf, h]

/-- The failbit after copying `rest`. -/
def shortOf (e : Env) (line : Nat) (rest : List Byte) : Bool :=
  rest.isEmpty || decide ((partOf e line rest).length < rest.length)

theorem shortOf_none {line : Nat} {rest : List Byte} (h : e.room line = none) : shortOf e line rest = rest.isEmpty := by
  simp [shortOf, partOf_none h]

theorem save_eq {xi xd xt : List Byte} :
    save e ⟨⟨some bi, some bd, some bt, some xi, some xd, some xt⟩, ⟨⟨some .idx, ip, false⟩, ⟨some .dat, dp, false⟩,
      ⟨some .sti, sp, false⟩, ⟨some .idxBak, 0, false⟩, ⟨some .datBak, 0, false⟩, ⟨some .stiBak, 0, false⟩⟩, c, s0, ca, bs⟩ =
    (.ok (), ⟨⟨some bi, some bd, some bt, some (overwrite xi 0 (partOf e 697 bi)), some (overwrite xd 0 (partOf e 698 bd)),
        some (overwrite xt 0 (partOf e 699 bt))⟩,
      ⟨⟨some .idx, bi.length, false⟩, ⟨some .dat, bd.length, false⟩, ⟨some .sti, bt.length, false⟩,
        ⟨some .idxBak, (partOf e 697 bi).length, shortOf e 697 bi⟩, ⟨some .datBak, (partOf e 698 bd).length, shortOf e 698 bd⟩,
        ⟨some .stiBak, (partOf e 699 bt).length, shortOf e 699 bt⟩⟩, c, s0, ca, bs⟩) := by
  rw [save, oIdx (sk (by omega)), oDat (sk (by omega)), oSti (sk (by omega)), wmod, wmod, run_modify]
  simp only [copy, copy.copyPart, World.file, World.bytes, World.put, Six.at, Six.set, Option.getD_some, Option.map_some, Option.isNone_some,
    Bool.or_false, List.drop_zero, Bool.false_eq_true, if_false, Nat.zero_add, shortOf]


/-! ## Clearing the store -/

section
variable {xi xd xt : Option (List Byte)} {ti td tt : Stream} {last : Nat}

theorem clearDone_eq (hs : bt.length = 8) {ui ud ut : Stream} :
    clearDone last ⟨⟨some [], some [], some bt, xi, xd, xt⟩, ⟨⟨some .idx, 0, false⟩, ⟨some .dat, 0, false⟩,
      ⟨some .sti, sp, false⟩, ui, ud, ut⟩, c, s0, ca, bs⟩ =
    (.ok true, close .stiBak (close .datBak (close .idxBak ⟨⟨some [], some [], some (le8 (BitVec.ofNat 64 (last + 1))), xi, xd, xt⟩,
      ⟨⟨some .idx, 0, false⟩, ⟨some .dat, 0, false⟩, ⟨some .sti, 8, false⟩, ui, ud, ut⟩, 0, last + 1, ca.reset (last + 1), bs⟩))) := by
  have ho : overwrite bt 0 (le8 (BitVec.ofNat 64 (last + 1))) = le8 (BitVec.ofNat 64 (last + 1)) := by
    simp [overwrite, hs]
  rw [clearDone, oSti (sk (by omega)), oSti wrt, ho, le8_length, wmod, wmod, wmod, wmod, run_pure]

/-- A stream that `if (stream) stream.close()` leaves closed. -/
def Idle (t : Stream) : Prop := t.bad = true → t.on = none

/-- Clearing the store succeeds when none of its calls fails. -/
theorem clearAll_ok (h1 : e.fails 711 = false) (h2 : e.fails 713 = false) (h3 : e.fails 715 = false) (h4 : e.fails 717 = false)
    (h5 : e.fails 719 = false) (h6 : e.fails 721 = false) (hs : bt.length = 8) {ui ud ut : Stream} :
    clearAll e last ⟨⟨some bi, some bd, some bt, xi, xd, xt⟩, ⟨⟨some .idx, ip, false⟩, ⟨some .dat, dp, false⟩,
      ⟨some .sti, sp, false⟩, ui, ud, ut⟩, c, s0, ca, bs⟩ =
    (.ok true, close .stiBak (close .datBak (close .idxBak ⟨⟨some [], some [], some (le8 (BitVec.ofNat 64 (last + 1))), xi, xd, xt⟩,
      ⟨⟨some .idx, 0, false⟩, ⟨some .dat, 0, false⟩, ⟨some .sti, 8, false⟩, ui, ud, ut⟩, 0, last + 1, ca.reset (last + 1), bs⟩))) := by
  rw [clearAll, wmod, wmod, wget]
  simp only [close, Six.at, Six.set, remove, h1, h2, Option.isNone_some, Bool.or_false, Bool.false_eq_true, if_false, if_true]
  rw [wset, wset, clearOpen, wmod]
  simp only [recreated, openOut, openRw, close, Six.at, Six.set, h3, h4, h5, h6, Option.isSome_none, Option.isSome_some, Bool.or_false,
    Bool.false_eq_true, if_false, if_true, List.length_nil]
  rw [wget]
  simp only [Bool.or_false, Bool.false_eq_true, if_false]
  exact clearDone_eq hs

/-- Clearing the store is given up when one of its calls fails. -/
theorem clearAll_break (h : e.fails 711 = true ∨ e.fails 713 = true ∨ e.fails 715 = true ∨ e.fails 717 = true ∨ e.fails 719 = true ∨
      e.fails 721 = true) {ui ud ut : Stream} :
    ∃ di dd ti td, Idle ti ∧ Idle td ∧ ((e.fails 711 = true ∨ e.fails 713 = true) → dd = some bd) ∧
    clearAll e last ⟨⟨some bi, some bd, some bt, xi, xd, xt⟩, ⟨⟨some .idx, ip, false⟩, ⟨some .dat, dp, false⟩,
      ⟨some .sti, sp, false⟩, ui, ud, ut⟩, c, s0, ca, bs⟩ =
    (.ok false, ⟨⟨di, dd, some bt, xi, xd, xt⟩, ⟨ti, td, ⟨some .sti, sp, false⟩, ui, ud, ut⟩, c, s0, ca, bs⟩) := by
  rw [clearAll, wmod, wmod, wget]
  cases h1 : e.fails 711
  · cases h2 : e.fails 713
    · simp only [close, Six.at, Six.set, remove, h1, h2, Option.isNone_some, Bool.or_false, Bool.false_eq_true, if_false, if_true]
      rw [wset, wset, clearOpen, wmod, wget]
      simp only [h1, h2, Bool.false_eq_true, false_or] at h
      cases h3 : e.fails 715 <;> cases h4 : e.fails 717 <;> cases h5 : e.fails 719 <;> cases h6 : e.fails 721 <;>
        simp only [h3, h4, h5, h6, Bool.false_eq_true, or_false] at h <;>
        simp only [recreated, openOut, openRw, close, spoil, Six.at, Six.set, h3, h4, h5, h6, Option.isSome_none, Option.isSome_some, Bool.or_false,
          Bool.or_true, Bool.true_or, Bool.false_eq_true, if_false, if_true, List.length_nil] <;>
        exact ⟨_, _, _, _, (by intro h; first | exact rfl | cases h), (by intro h; first | exact rfl | cases h), (by simp), rfl⟩
    · simp only [close, Six.at, Six.set, remove, h1, h2, Option.isNone_some, Bool.or_false, Bool.true_or, Bool.false_eq_true, if_false, if_true]
      exact ⟨_, _, _, _, (by intro h; cases h), (by intro h; cases h), (by simp), rfl⟩
  · simp only [close, Six.at, Six.set, remove, h1, Option.isNone_some, Bool.true_or, Bool.false_eq_true, if_false, if_true]
    exact ⟨_, _, _, _, (by intro h; cases h), (by intro h; cases h), (by simp), rfl⟩

end

/-! ## Restoring -/

section
variable {di dd dt : Option (List Byte)} {xi xd xt : List Byte} {ti td tt : Stream} {pi pd pt : Nat} {zi zd zt : Bool}

theorem closeIf_idle {o : Path} {w : World} (h : Idle (w.str.at o)) :
    ∃ q z, closeIf o w = { w with str := w.str.set ⟨none, q, z⟩ o } := by
  rw [closeIf]
  by_cases hb : (w.str.at o).bad = true
  · rw [if_pos hb]
    refine ⟨(w.str.at o).pos, (w.str.at o).bad, ?_⟩
    have := h hb
    obtain ⟨dir, str, c, s0, ca, bs⟩ := w
    cases o <;> simp only [Six.at, Six.set] at this ⊢ <;> rw [← this]
  · rw [if_neg hb, close]
    rcases hs : (w.str.at o).on with _ | p
    · exact ⟨(w.str.at o).pos, true, by simp only [← hs]⟩
    · exact ⟨(w.str.at o).pos, (w.str.at o).bad, rfl⟩

theorem seekAny (b : List Byte) (p q : Nat) (x : Bool) : ∃ q' x', seek q ⟨b, p, x⟩ = (.ok (), ⟨b, q', x'⟩) ∧ (q < 2 ^ 63 → x' = x ∧ (x = false → q' = q)) := by
  cases x
  · by_cases h : 2 ^ 63 ≤ q
    · exact ⟨p, true, by rw [seek, run_bind_ok (run_get _), run_ite, if_neg (by simp), run_ite, if_pos h]; rfl, fun h' => absurd h' (by omega)⟩
    · exact ⟨q, false, sk (by omega), fun _ => ⟨rfl, fun _ => rfl⟩⟩
  · exact ⟨p, true, rfl, fun _ => ⟨rfl, fun h => nomatch h⟩⟩

/-- Creating a file anew and opening it. -/
theorem anew (e : Env) (l1 l2 : Nat) {o : Path} {w : World} (h : (w.str.at o).on = none) :
    ∃ x st, openRw e l2 true o o (close o (openOut e l1 o o w)) = { w with dir := w.dir.set x o, str := w.str.set st o } ∧
      (e.fails l1 = false → x = some []) ∧ (e.fails l1 = false → e.fails l2 = false → st = ⟨some o, 0, false⟩) := by
  obtain ⟨⟨di, dd, ds, dib, ddb, dsb⟩, ⟨⟨ni, qi, zi⟩, ⟨nd, qd, zd⟩, ⟨ns, qs, zs⟩, ⟨nib, qib, zib⟩, ⟨ndb, qdb, zdb⟩, ⟨nsb, qsb, zsb⟩⟩, c, s0, ca, bs⟩ := w
  cases o <;> simp only [Six.at] at h <;> subst h
  · cases di <;> cases h1 : e.fails l1 <;> cases h2 : e.fails l2 <;>
      simp only [openRw, openOut, close, spoil, Six.at, Six.set, h1, h2, Option.isSome_none, Bool.or_false, Bool.or_true, Bool.false_eq_true, if_false, if_true, List.length_nil] <;>
      exact ⟨_, _, rfl, (by simp), (by simp)⟩
  · cases dd <;> cases h1 : e.fails l1 <;> cases h2 : e.fails l2 <;>
      simp only [openRw, openOut, close, spoil, Six.at, Six.set, h1, h2, Option.isSome_none, Bool.or_false, Bool.or_true, Bool.false_eq_true, if_false, if_true, List.length_nil] <;>
      exact ⟨_, _, rfl, (by simp), (by simp)⟩
  · cases ds <;> cases h1 : e.fails l1 <;> cases h2 : e.fails l2 <;>
      simp only [openRw, openOut, close, spoil, Six.at, Six.set, h1, h2, Option.isSome_none, Bool.or_false, Bool.or_true, Bool.false_eq_true, if_false, if_true, List.length_nil] <;>
      exact ⟨_, _, rfl, (by simp), (by simp)⟩
  · cases dib <;> cases h1 : e.fails l1 <;> cases h2 : e.fails l2 <;>
      simp only [openRw, openOut, close, spoil, Six.at, Six.set, h1, h2, Option.isSome_none, Bool.or_false, Bool.or_true, Bool.false_eq_true, if_false, if_true, List.length_nil] <;>
      exact ⟨_, _, rfl, (by simp), (by simp)⟩
  · cases ddb <;> cases h1 : e.fails l1 <;> cases h2 : e.fails l2 <;>
      simp only [openRw, openOut, close, spoil, Six.at, Six.set, h1, h2, Option.isSome_none, Bool.or_false, Bool.or_true, Bool.false_eq_true, if_false, if_true, List.length_nil] <;>
      exact ⟨_, _, rfl, (by simp), (by simp)⟩
  · cases dsb <;> cases h1 : e.fails l1 <;> cases h2 : e.fails l2 <;>
      simp only [openRw, openOut, close, spoil, Six.at, Six.set, h1, h2, Option.isSome_none, Bool.or_false, Bool.or_true, Bool.false_eq_true, if_false, if_true, List.length_nil] <;>
      exact ⟨_, _, rfl, (by simp), (by simp)⟩

theorem oStiBak {α β : Type} {dib ddb : Option (List Byte)} {tib tdb ti td ts : Stream} {di dd ds : Option (List Byte)} {b b' : List Byte} {p p' : Nat}
    {x x' : Bool} {m : M File α} {k : α → M World β} {a : α} (h : m ⟨b, p, x⟩ = (.ok a, ⟨b', p', x'⟩)) :
    (on .stiBak m >>= k) ⟨⟨di, dd, ds, dib, ddb, some b⟩, ⟨ti, td, ts, tib, tdb, ⟨some .stiBak, p, x⟩⟩, c, s0, ca, bs⟩ =
      k a ⟨⟨di, dd, ds, dib, ddb, some b'⟩, ⟨ti, td, ts, tib, tdb, ⟨some .stiBak, p', x'⟩⟩, c, s0, ca, bs⟩ := by
  refine run_bind_ok ?_
  rw [on]
  simp only [World.file, World.bytes, World.put, Six.at, Six.set, Option.getD_some, Option.map_some, Option.isNone_some, Bool.or_false, h]

/-- The state before the files are opened again. -/
theorem reopened_first (hi : Idle ti) (hd : Idle td) (ht : Idle tt) :
    ∃ qi qd qt yi yd yt ri rd rt, (zi = false → ri = 0) ∧ (zd = false → rd = 0) ∧ (zt = false → rt = 0) ∧
    reopened e ⟨⟨di, dd, dt, some xi, some xd, some xt⟩, ⟨ti, td, tt, ⟨some .idxBak, pi, zi⟩, ⟨some .datBak, pd, zd⟩, ⟨some .stiBak, pt, zt⟩⟩, c, s0, ca, bs⟩ =
    (do
      modify (openOut e 823 .dat .datBak)
      modify (close .dat)
      modify (openRw e 825 true .dat .dat)
      modify (openOut e 826 .idx .idx)
      modify (close .idx)
      modify (openRw e 828 true .idx .idx)
      modify (openOut e 829 .sti .sti)
      modify (close .sti)
      modify (openRw e 831 true .sti .sti) : M World Unit) ⟨⟨rmOf e 817 di, rmOf e 818 dd, rmOf e 819 dt, some xi, some xd, some xt⟩,
        ⟨⟨none, qi, yi⟩, ⟨none, qd, yd⟩, ⟨none, qt, yt⟩, ⟨some .idxBak, ri, zi⟩, ⟨some .datBak, rd, zd⟩, ⟨some .stiBak, rt, zt⟩⟩, c, s0, ca, bs⟩ := by
  rw [reopened, wmod]
  obtain ⟨qi, yi, h1⟩ := closeIf_idle (o := .idx) (w := ⟨⟨di, dd, dt, some xi, some xd, some xt⟩, ⟨ti, td, tt, ⟨some .idxBak, pi, zi⟩, ⟨some .datBak, pd, zd⟩, ⟨some .stiBak, pt, zt⟩⟩, c, s0, ca, bs⟩) hi
  rw [h1]
  simp only [Six.set]
  rw [wmod]
  obtain ⟨qd, yd, h2⟩ := closeIf_idle (o := .dat) (w := ⟨⟨di, dd, dt, some xi, some xd, some xt⟩, ⟨⟨none, qi, yi⟩, td, tt, ⟨some .idxBak, pi, zi⟩, ⟨some .datBak, pd, zd⟩, ⟨some .stiBak, pt, zt⟩⟩, c, s0, ca, bs⟩) hd
  rw [h2]
  simp only [Six.set]
  rw [wmod]
  obtain ⟨qt, yt, h3⟩ := closeIf_idle (o := .sti) (w := ⟨⟨di, dd, dt, some xi, some xd, some xt⟩, ⟨⟨none, qi, yi⟩, ⟨none, qd, yd⟩, tt, ⟨some .idxBak, pi, zi⟩, ⟨some .datBak, pd, zd⟩, ⟨some .stiBak, pt, zt⟩⟩, c, s0, ca, bs⟩) ht
  rw [h3]
  simp only [Six.set]
  rw [wmod, remove_eq, wmod, remove_eq, wmod, remove_eq]
  simp only [Six.at, Six.set]
  obtain ⟨ri, ui, g1, g1'⟩ := seekAny xi pi 0 zi
  obtain ⟨rd, ud, g2, g2'⟩ := seekAny xd pd 0 zd
  obtain ⟨rt, ut, g3, g3'⟩ := seekAny xt pt 0 zt
  obtain ⟨rfl, k1⟩ := g1' (by omega)
  obtain ⟨rfl, k2⟩ := g2' (by omega)
  obtain ⟨rfl, k3⟩ := g3' (by omega)
  rw [oIdxBak g1, oDatBak g2, oStiBak g3]
  exact ⟨qi, qd, qt, yi, yd, yt, ri, rd, rt, k1, k2, k3, rfl⟩

/-- When the data file is gone, restoring fails: it is not created again, and its backup is emptied. -/
theorem restore_lost (hi : Idle ti) (hd : Idle td) (ht : Idle tt) (h818 : e.fails 818 = false) :
    ∃ w', restore e ⟨⟨di, dd, dt, some xi, some xd, some xt⟩, ⟨ti, td, tt, ⟨some .idxBak, pi, zi⟩, ⟨some .datBak, pd, zd⟩, ⟨some .stiBak, pt, zt⟩⟩, c, s0, ca, bs⟩ =
      (.error .thrown, w') ∧ w'.dir.dat = none ∧ (e.fails 823 = false → w'.dir.datBak = some []) ∧ w'.str.dat.bad = true ∧
      (e.fails 826 = false → w'.dir.idx = some []) ∧ (e.fails 829 = false → w'.dir.sti = some []) ∧
      w'.count = c ∧ w'.start = s0 ∧ w'.cache = ca ∧ w'.bufSize = bs := by
  obtain ⟨qi, qd, qt, yi, yd, yt, ri, rd, rt, -, -, -, hr⟩ := reopened_first (e := e) (di := di) (dd := dd) (dt := dt) (xi := xi) (xd := xd)
    (xt := xt) (pi := pi) (pd := pd) (pt := pt) (zi := zi) (zd := zd) (zt := zt) (c := c) (s0 := s0) (ca := ca) (bs := bs) hi hd ht
  have h1 : rmOf e 818 dd = none := by rw [rmOf, h818]; rfl
  rw [h1] at hr
  have hdat : ∃ x, (e.fails 823 = false → x = some []) ∧ openRw e 825 true .dat .dat (close .dat (openOut e 823 .dat .datBak
      ⟨⟨rmOf e 817 di, none, rmOf e 819 dt, some xi, some xd, some xt⟩,
        ⟨⟨none, qi, yi⟩, ⟨none, qd, yd⟩, ⟨none, qt, yt⟩, ⟨some .idxBak, ri, zi⟩, ⟨some .datBak, rd, zd⟩, ⟨some .stiBak, rt, zt⟩⟩, c, s0, ca, bs⟩)) =
      ⟨⟨rmOf e 817 di, none, rmOf e 819 dt, some xi, x, some xt⟩,
        ⟨⟨none, qi, yi⟩, ⟨none, if e.fails 823 then qd else 0, true⟩, ⟨none, qt, yt⟩, ⟨some .idxBak, ri, zi⟩, ⟨some .datBak, rd, zd⟩, ⟨some .stiBak, rt, zt⟩⟩, c, s0, ca, bs⟩ := by
    cases h2 : e.fails 823 <;>
      simp only [openRw, openOut, close, spoil, Six.at, Six.set, h2, Option.isSome_none, Bool.or_false, Bool.or_true, Bool.false_eq_true, if_false, if_true] <;>
      exact ⟨_, (by simp), rfl⟩
  obtain ⟨x, hx, hdat⟩ := hdat
  rw [wmod, wmod, wmod, hdat, wmod, wmod, wmod] at hr
  obtain ⟨x2, st2, h2, k2, -⟩ := anew e 826 828 (o := .idx) (w := ⟨⟨rmOf e 817 di, none, rmOf e 819 dt, some xi, x, some xt⟩,
        ⟨⟨none, qi, yi⟩, ⟨none, if e.fails 823 then qd else 0, true⟩, ⟨none, qt, yt⟩, ⟨some .idxBak, ri, zi⟩, ⟨some .datBak, rd, zd⟩, ⟨some .stiBak, rt, zt⟩⟩, c, s0, ca, bs⟩) rfl
  simp only [Six.set] at h2
  rw [h2, wmod, wmod, run_modify] at hr
  obtain ⟨x3, st3, h3, k3, -⟩ := anew e 829 831 (o := .sti) (w := ⟨⟨x2, none, rmOf e 819 dt, some xi, x, some xt⟩,
        ⟨st2, ⟨none, if e.fails 823 then qd else 0, true⟩, ⟨none, qt, yt⟩, ⟨some .idxBak, ri, zi⟩, ⟨some .datBak, rd, zd⟩, ⟨some .stiBak, rt, zt⟩⟩, c, s0, ca, bs⟩) rfl
  simp only [Six.set] at h3
  rw [h3] at hr
  refine ⟨_, by rw [restore, run_bind_ok hr, wget]; simp only [Bool.or_true, Bool.true_or, if_true]; rw [run_throw], ?_⟩
  exact ⟨rfl, hx, rfl, k2, k3, rfl, rfl, rfl, rfl⟩

/-- When the data file could not be removed, the other two files are restored and the data file is left as it is. -/
theorem restore_kept {bd : List Byte} (hi : Idle ti) (hd : Idle td) (ht : Idle tt) (h818 : e.fails 818 = true) (h823 : e.fails 823 = false) (h825 : e.fails 825 = false)
    (h826 : e.fails 826 = false) (h828 : e.fails 828 = false) (h829 : e.fails 829 = false) (h831 : e.fails 831 = false)
    (hr1 : e.room 839 = none) (hr2 : e.room 840 = none) :
    ∃ w', restore e ⟨⟨di, some bd, dt, some xi, some xd, some xt⟩, ⟨ti, td, tt, ⟨some .idxBak, pi, false⟩, ⟨some .datBak, pd, zd⟩, ⟨some .stiBak, pt, false⟩⟩, c, s0, ca, bs⟩ =
      (.ok false, w') ∧ w'.dir.idx = some xi ∧ w'.dir.dat = some bd ∧ w'.dir.sti = some xt ∧ w'.str.dat.bad = true ∧
      w'.count = c ∧ w'.start = s0 ∧ w'.cache = ca ∧ w'.bufSize = bs := by
  obtain ⟨qi, qd, qt, yi, yd, yt, ri, rd, rt, k1, -, k3, hr⟩ := reopened_first (e := e) (di := di) (dd := some bd) (dt := dt) (xi := xi) (xd := xd)
    (xt := xt) (pi := pi) (pd := pd) (pt := pt) (zi := false) (zd := zd) (zt := false) (c := c) (s0 := s0) (ca := ca) (bs := bs) hi hd ht
  obtain rfl := k1 rfl
  obtain rfl := k3 rfl
  have h1 : rmOf e 818 (some bd) = some bd := by rw [rmOf, h818]; rfl
  rw [h1, wmod, wmod, wmod, wmod, wmod, wmod, wmod, wmod, run_modify] at hr
  simp only [openRw, openOut, close, Six.at, Six.set, h823, h825, h826, h828, h829, h831, Option.isSome_none, Bool.or_false, Bool.false_eq_true, if_false,
    if_true, List.length_nil] at hr
  have hw : ∀ (part : List Byte), overwrite [] 0 part = part := by intro part; simp [overwrite]
  refine ⟨_, by rw [restore, run_bind_ok hr, wget]; simp only [Bool.or_false, Bool.false_eq_true, if_false]; rw [wmod, wmod, wmod, wmod, wmod, wmod, run_pure], ?_⟩
  have hn : ∀ part, overwrite bd bd.length part = bd ++ part := overwrite_end bd
  simp only [copy, copy.copyPart, close, World.file, World.bytes, World.put, Six.at, Six.set, Option.getD_some, Option.map_some, Option.isNone_some,
    Bool.or_false, List.drop_zero, Bool.false_eq_true, if_false, List.drop_nil, partOf_none hr1, partOf_none hr2, hw]
  have hp : partOf e 838 [] = [] := by rw [partOf]; split <;> simp
  rw [hp, hn]
  simp

end

end

end Cs.LogStore.Io
