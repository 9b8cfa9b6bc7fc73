import Verif.Raft.Spec

/-!
# Concrete histories

A script of actions is run by evaluation; what it yields is a history.
-/

namespace Cs.Raft
open Cs

/-- An action of a script. -/
inductive Move where
  | go (x : Input)
  | crash (x : Input) (k : Nat)
  | start

/-- The input of an action. -/
def Move.input : Move → List Input
  | .go x => [x]
  | .crash x _ => [x]
  | .start => []

/-- Run one action. -/
def Node.act (c : Setup) (n : Node) : Move → Option (Node × List Eff)
  | .go x => match n.up with
    | some s =>
      match (x.run { s with trace := [] }).1 with
      | .ok _ => some (⟨n.disk.afterAll (x.run { s with trace := [] }).2.trace, some (x.run { s with trace := [] }).2⟩,
                       (x.run { s with trace := [] }).2.trace)
      | .error .thrown => some (⟨n.disk.afterAll (x.run { s with trace := [] }).2.trace,
                                 some (x.run { s with trace := [] }).2⟩, (x.run { s with trace := [] }).2.trace)
      | .error _ => none
    | none => none
  | .crash x k => match n.up with
    | some s => some (⟨n.disk.afterAll ((x.run { s with trace := [] }).2.trace.take k), none⟩,
                      (x.run { s with trace := [] }).2.trace.take k)
    | none => none
  | .start => match n.up with
    | some _ => none
    | none => some (⟨n.disk, some (boot c.id c.params c.env n.disk)⟩, [])

/-- Run a script. -/
def Node.play (c : Setup) (n : Node) (fx : List Eff) : List Move → Option (Node × List Eff)
  | [] => some (n, fx)
  | a :: as => match n.act c a with
    | some (n', es) => n'.play c (fx ++ es) as
    | none => none

theorem Node.act_step {c : Setup} {n n' : Node} {a : Move} {es : List Eff} (h : n.act c a = some (n', es)) :
    ∃ x : Option Input, x.toList = a.input ∧ n.Step c x es n' := by
  obtain ⟨d, up⟩ := n
  cases a with
  | go x =>
    cases up with
    | none => cases h
    | some s =>
      unfold Node.act at h
      simp only [] at h
      rcases hr : x.run { s with trace := [] } with ⟨e | u, s'⟩
      · rw [hr] at h
        cases e with
        | thrown => cases h; exact ⟨some x, rfl, .survive hr⟩
        | exit c => cases h
        | ub => cases h
      · rw [hr] at h; cases h; exact ⟨some x, rfl, .run hr⟩
  | crash x k =>
    cases up with
    | none => cases h
    | some s =>
      unfold Node.act at h
      cases h
      exact ⟨some x, rfl, .crash (List.take_prefix _ _)⟩
  | start =>
    cases up with
    | some s => cases h
    | none => cases h; exact ⟨none, rfl, .boot⟩

theorem Node.play_hist {c : Setup} {n0 : Node} : ∀ {as : List Move} {n n' : Node} {xs : List Input} {fx fx' : List Eff},
    Hist c n0 xs fx n → n.play c fx as = some (n', fx') → Hist c n0 (xs ++ as.flatMap Move.input) fx' n'
  | [], n, n', xs, fx, fx', h, hp => by cases hp; simpa using h
  | a :: as, n, n', xs, fx, fx', h, hp => by
    unfold Node.play at hp
    rcases ha : n.act c a with _ | ⟨n1, es⟩
    · rw [ha] at hp; cases hp
    · rw [ha] at hp
      obtain ⟨x, hx, hs⟩ := Node.act_step ha
      have := Node.play_hist (Hist.step h hs) hp
      rw [hx, List.append_assoc] at this
      simpa using this

/-- What a script yields can be checked by evaluation. -/
def Node.check (c : Setup) (n : Node) (as : List Move) (P : Node → List Eff → Bool) : Bool :=
  match n.play c [] as with
  | some (n', fx) => P n' fx
  | none => false

theorem Node.witness {c : Setup} {n : Node} (as : List Move) (P : Node → List Eff → Bool) (h : n.check c as P = true) :
    ∃ n' fx, Hist c n (as.flatMap Move.input) fx n' ∧ P n' fx = true := by
  unfold Node.check at h
  rcases hp : n.play c [] as with _ | ⟨n', fx⟩
  · rw [hp] at h; cases h
  · rw [hp] at h
    exact ⟨n', fx, by simpa using Node.play_hist Hist.nil hp, h⟩

end Cs.Raft
