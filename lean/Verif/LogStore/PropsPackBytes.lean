import Verif.LogStore.Props

/-!
# Applying a pack, whatever bytes it has (C109)

Packs come from another server (raft_server_req_handlers.cxx 530) and are not checked.
-/

namespace Cs.LogStore
open Cs Cs.Buffer

/-! ## Specification vocabulary -/

/-- The first length of a pack: how many bytes of positions. -/
def announcedIdx (bs : List Byte) : Int := (dec4 (bs.take 4)).toInt
/-- The second length of a pack: how many bytes of entries. -/
def announcedData (bs : List Byte) : Int := (dec4 ((bs.drop 4).take 4)).toInt

/-- A pack announces a negative length, or more bytes than it has. -/
def Overstates (bs : List Byte) : Prop :=
  8 ≤ bs.length ∧ (announcedIdx bs < 0 ∨ announcedData bs < 0 ∨ (bs.length : Int) < 8 + announcedIdx bs + announcedData bs)

/-! ## Operations that can only fail by an exception -/

def NoUb {σ α : Type} (m : M σ α) : Prop := ∀ s f, (m s).1 = .error f → f = .thrown

theorem NoUb.bind {σ α β : Type} {m : M σ α} {k : α → M σ β} (h1 : NoUb m) (h2 : ∀ a, NoUb (k a)) : NoUb (m >>= k) := by
  intro s f h
  rcases e : m s with ⟨f' | a, s'⟩
  · rw [run_bind_err e] at h
    exact h1 s f (by rw [e]; exact congrArg _ (Except.error.inj h))
  · rw [run_bind_ok e] at h
    exact h2 a s' f h

theorem NoUb.pure {σ α : Type} (a : α) : NoUb (pure a : M σ α) := fun _ _ h => by cases h
theorem NoUb.thrown {σ α : Type} : NoUb (throw .thrown : M σ α) := fun _ _ h => by cases h; rfl
theorem NoUb.get {σ : Type} : NoUb (get : M σ σ) := fun _ _ h => by cases h
theorem NoUb.set {σ : Type} (s : σ) : NoUb (set s : M σ Unit) := fun _ _ h => by cases h
theorem NoUb.modify {σ : Type} (f : σ → σ) : NoUb (modify f : M σ Unit) := fun _ _ h => by cases h
theorem NoUb.ite {σ α : Type} {c : Prop} [Decidable c] {m k : M σ α} (h1 : NoUb m) (h2 : NoUb k) : NoUb (if c then m else k) := by
  split
  · exact h1
  · exact h2
theorem NoUb.onIdx {α : Type} {m : M File α} (h : NoUb m) : NoUb (onIdx m) := fun s => h s.idx
theorem NoUb.onDat {α : Type} {m : M File α} (h : NoUb m) : NoUb (onDat m) := fun s => h s.dat

theorem noUb_seek (p : Nat) : NoUb (seek p) := .bind .get fun _ => .ite (.pure _) (.ite (.set _) (.set _))
theorem noUb_seekEnd : NoUb seekEnd := .modify _
theorem noUb_tell : NoUb tell := .bind .get fun _ => .pure _
theorem noUb_read (n : Nat) : NoUb (read n) :=
  .bind .get fun _ => .ite .thrown (.ite (.bind (.set _) fun _ => .pure _) (.bind (.set _) fun _ => .thrown))
theorem noUb_readBlock (n : Nat) : NoUb (readBlock n) := .ite .thrown (noUb_read n)
theorem noUb_readULong : NoUb readULong := .bind (noUb_readBlock 8) fun _ => .pure _
theorem noUb_writeRaw (bs : List Byte) : NoUb (writeRaw bs) := .modify _
theorem noUb_truncateReopen (n : Nat) : NoUb (truncateReopen n) := .modify _
theorem noUb_decode (bs : List Byte) : NoUb (lift (decode bs)) := by
  intro s f
  rw [decode]
  split
  · intro h; cases h; rfl
  · intro h; cases h

theorem noUb_relocate (prev first : Nat) : ∀ (n : Nat) (bs : List Byte), NoUb (relocate prev first n bs)
  | 0, _ => .pure _
  | n + 1, bs => by
    rw [relocate]
    exact .ite .thrown (.bind (.onIdx (noUb_writeRaw _)) fun _ => noUb_relocate prev first n _)

theorem noUb_fillLoop : ∀ (d : Nat) (bs : List Byte), NoUb (fillLoop d bs) := by
  intro d bs
  fun_induction fillLoop d bs with
  | case1 d b0 b1 b2 b3 b4 b5 b6 b7 rest ih =>
    exact .bind (.onDat (noUb_readBlock _)) fun _ => .bind (noUb_decode _) fun _ => .bind (.modify _) fun _ => ih
  | case2 => exact .pure _
  | case3 => exact .thrown

theorem noUb_fillFrom (n : Nat) (bs : List Byte) : NoUb (fillFrom n bs) :=
  .ite .thrown (.bind (.onDat (noUb_seek _)) fun _ => .bind (noUb_fillLoop _ _) fun _ => .bind (.onDat (noUb_readBlock _)) fun _ =>
    .bind (noUb_decode _) fun _ => .modify _)

theorem noUb_fillBuffer : NoUb fillBuffer :=
  .bind (.onIdx noUb_seekEnd) fun _ => .bind (.onDat noUb_seekEnd) fun _ => .bind .get fun _ => .bind (.onIdx noUb_tell) fun _ =>
    .bind (.onDat noUb_tell) fun _ => .ite (.bind (.onIdx (noUb_seek _)) fun _ => .bind (.onIdx (noUb_readBlock _)) fun _ =>
      noUb_fillFrom _ _) (.pure _)

theorem noUb_checkIO : NoUb checkIO := .bind .get fun _ => .ite .thrown (.pure _)

theorem noUb_packPos (i : Nat) : NoUb (packPos i) :=
  .bind .get fun _ => .ite (.bind (.onIdx noUb_seekEnd) fun _ => .onDat noUb_seekEnd)
    (.bind (.onIdx (noUb_seek _)) fun _ => .bind (.onIdx noUb_readULong) fun _ => .bind (.onIdx (noUb_seek _)) fun _ =>
      .onDat (noUb_seek _))

theorem noUb_packTrunc : NoUb packTrunc :=
  .bind (.onIdx noUb_tell) fun _ => .bind (.onDat noUb_tell) fun _ => .bind (.onIdx noUb_seekEnd) fun _ =>
    .bind (.onDat noUb_seekEnd) fun _ => .bind (.onIdx noUb_tell) fun _ =>
      .ite (.bind (.onIdx (noUb_truncateReopen _)) fun _ => .onDat (noUb_truncateReopen _)) (.pure _)

theorem NoUb.ite_neg {σ α : Type} {c : Prop} [Decidable c] {m k : M σ α} (hc : ¬ c) (h2 : NoUb k) : NoUb (if c then m else k) := by
  rw [if_neg hc]; exact h2

theorem NoUb.ite' {σ α : Type} {c : Prop} [Decidable c] {m k : M σ α} (h1 : NoUb m) (h2 : ¬ c → NoUb k) :
    NoUb (if c then m else k) := by
  split
  · exact h1
  · exact h2 ‹_›

theorem noUb_packWrite {i d : Nat} {body : List Byte} (h : i + d ≤ body.length) : NoUb (packWrite i d body) := by
  have h1 : ¬ body.length < i := by omega
  have h2 : ¬ body.length < i + d := by omega
  exact .bind (.onDat noUb_tell) fun _ => .ite .thrown
    (.ite (.ite_neg h1 (.bind (.onIdx (noUb_writeRaw _)) fun _ => .ite_neg h2 (.onDat (noUb_writeRaw _))))
      (.bind (noUb_relocate _ _ _ _) fun _ => .ite_neg h2 (.onDat (noUb_writeRaw _))))

theorem toNat_of_nonneg {v : I32} (h : ¬ v.toInt < 0) : (v.toNat : Int) = v.toInt := by
  rw [BitVec.toInt_eq_toNat_cond] at h ⊢
  split
  · rfl
  · rename_i h'
    rw [if_neg h'] at h
    have := v.isLt
    omega

theorem noUb_applyPack {bs : List Byte} (h : ¬ Overstates bs) (i : Nat) : NoUb (applyPack i bs) := by
  refine .bind .get fun s => .ite .thrown (.ite' .thrown fun h8 => ?_)
  have hn : ¬ (announcedIdx bs < 0 ∨ announcedData bs < 0 ∨ (bs.length : Int) < 8 + announcedIdx bs + announcedData bs) :=
    fun hh => h ⟨by omega, hh⟩
  have h1 : ¬ ((dec4 (bs.take 4)).toInt < 0 ∨ (dec4 ((bs.drop 4).take 4)).toInt < 0) :=
    fun hh => hn (hh.elim .inl fun x => .inr (.inl x))
  have h2 : (dec4 (bs.take 4)).toNat + (dec4 ((bs.drop 4).take 4)).toNat ≤ (bs.drop 8).length := by
    have a1 := toNat_of_nonneg (v := dec4 (bs.take 4)) fun x => h1 (.inl x)
    have a2 := toNat_of_nonneg (v := dec4 ((bs.drop 4).take 4)) fun x => h1 (.inr x)
    rw [announcedIdx, announcedData] at hn
    rw [List.length_drop]
    omega
  exact .ite_neg h1 (.bind (noUb_packPos _) fun _ => .bind (noUb_packWrite h2) fun _ => .bind noUb_packTrunc fun _ =>
    .bind noUb_checkIO fun _ => .bind (.modify _) fun _ => .bind (.modify _) fun _ => noUb_fillBuffer)

/-! ## The property -/

/-- **C109, partial**: applying a pack at any index of any store, in whatever state it is, succeeds or throws, whatever bytes the pack has,
unless it announces more bytes than it has, or a negative number. What is missing: these packs, see `overstating_pack_undefined`. -/
theorem applying_pack_harmless_partial (s : Store) (index : Nat) (bs : List Byte) (h : ¬ Overstates bs) :
    (∃ s', applyPack index bs s = (.ok (), s')) ∨ ∃ s', applyPack index bs s = (.error .thrown, s') := by
  rcases e : applyPack index bs s with ⟨f | u, s'⟩
  · rw [noUb_applyPack h index s f (by rw [e])]
    exact .inr ⟨s', rfl⟩
  · exact .inl ⟨s', rfl⟩

/-- A pack of one entry, and one that is cut off in the middle of its positions. -/
example : ¬ Overstates ([8, 0, 0, 0, 9, 0, 0, 0] ++ [0, 0, 0, 0, 0, 0, 0, 0] ++ [1, 0, 0, 0, 0, 0, 0, 0, 1]) ∧
    ¬ Overstates [8, 0, 0, 0, 9, 0, 0] := by
  constructor
  · rintro ⟨-, h | h | h⟩ <;> exact absurd h (by decide)
  · rintro ⟨h, -⟩; exact absurd h (by decide)

/-- C109 is false for packs: a negative length does harm in every store, and so do lengths beyond the pack in a new one (too many bytes of
entries; too many bytes of positions). -/
theorem overstating_pack_undefined :
    (∀ (s : Store) (index : Nat) (bs : List Byte), 8 ≤ bs.length → announcedIdx bs < 0 ∨ announcedData bs < 0 →
      (applyPack index bs s).1 = .error .ub) ∧
    ∃ s, Reach s Log.empty ∧ (applyPack 1 ([8, 0, 0, 0, 232, 3, 0, 0] ++ [0, 0, 0, 0, 0, 0, 0, 0]) s).1 = .error .ub ∧
      (applyPack 1 ([232, 3, 0, 0, 0, 0, 0, 0] ++ [0, 0, 0, 0, 0, 0, 0, 0]) s).1 = .error .ub := by
  constructor
  · intro s i bs h8 hn
    show ((if bs.length < 4 then _ else _ : M Store Unit) s).1 = _
    rw [if_neg (by omega)]
    show ((if bs.length < 8 then _ else _ : M Store Unit) s).1 = _
    rw [if_neg (by omega)]
    show ((if (dec4 (bs.take 4)).toInt < 0 ∨ (dec4 ((bs.drop 4).take 4)).toInt < 0 then _ else _ : M Store Unit) s).1 = _
    rw [announcedIdx, announcedData] at hn
    rw [if_pos hn]
    rfl
  · cases e : openOn Disk.none 5 with
    | error f =>
      have : (openOn Disk.none 5).toBool = true := by decide +kernel
      rw [e] at this
      cases this
    | ok s =>
      refine ⟨s, .new (by decide) e, ?_, ?_⟩
      · have : (match openOn Disk.none 5 with
          | .ok s => (applyPack 1 ([8, 0, 0, 0, 232, 3, 0, 0] ++ [0, 0, 0, 0, 0, 0, 0, 0]) s).1
          | .error f => .error f) = .error .ub := by decide +kernel
        rw [e] at this
        exact this
      · have : (match openOn Disk.none 5 with
          | .ok s => (applyPack 1 ([232, 3, 0, 0, 0, 0, 0, 0] ++ [0, 0, 0, 0, 0, 0, 0, 0]) s).1
          | .error f => .error f) = .error .ub := by decide +kernel
        rw [e] at this
        exact this

end Cs.LogStore
