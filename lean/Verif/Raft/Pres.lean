import Verif.Raft.Model

/-!
# Relations between the states before and after a handler

`Pres Q m`: the states before and after `m` are always related by `Q`, also when `m` stops with a fault.
-/

namespace Cs.Raft
open Cs

/-- `Q` holds between the state before and the state after `m`. -/
def Pres {α : Type} (Q : Srv → Srv → Prop) (m : R α) : Prop := ∀ s, Q s (m s).2

/-- Reflexive and transitive. -/
structure PO (Q : Srv → Srv → Prop) : Prop where
  refl : ∀ s, Q s s
  trans : ∀ {a b c}, Q a b → Q b c → Q a c

variable {Q : Srv → Srv → Prop} {α β : Type}

theorem pres_bind (h : PO Q) {m : R α} {k : α → R β} (h1 : Pres Q m) (h2 : ∀ a, Pres Q (k a)) :
    Pres Q (m >>= k) := by
  intro s
  have e1 := h1 s
  rw [run_bind]
  rcases hm : m s with ⟨a | a, s'⟩
  · rw [hm] at e1; exact e1
  · rw [hm] at e1; exact h.trans e1 (h2 a s')

theorem pres_pure (h : PO Q) (a : α) : Pres Q (pure a : R α) := fun s => h.refl s
theorem pres_throw (h : PO Q) (e : Fault) : Pres Q (throw e : R α) := fun s => h.refl s
theorem pres_get (h : PO Q) : Pres Q (get : R Srv) := fun s => h.refl s
theorem pres_modify {f : Srv → Srv} (h : ∀ s, Q s (f s)) : Pres Q (modify f : R PUnit) := fun s => h s
theorem pres_ite {c : Prop} [Decidable c] {a b : R α} (h1 : Pres Q a) (h2 : Pres Q b) : Pres Q (if c then a else b) := by
  split <;> assumption

theorem pres_forEach (h : PO Q) {f : α → R Unit} (hf : ∀ a, Pres Q (f a)) : ∀ as, Pres Q (forEach f as)
  | [] => pres_pure h ()
  | a :: as => pres_bind h (hf a) fun _ => pres_forEach h hf as

theorem pres_catch (h : PO Q) {m k : R Unit} (h1 : Pres Q m) (h2 : Pres Q k) : Pres Q (catchThrown m k) := by
  intro s
  have e1 := h1 s
  unfold Cs.Raft.catchThrown
  rcases hm : m s with ⟨a | a, s'⟩
  · rw [hm] at e1
    cases a with
    | thrown => exact h.trans e1 (h2 s')
    | _ => exact e1
  · rw [hm] at e1; exact e1

/-- The body of `get >>= k` may use the state it reads. -/
theorem pres_getBind {k : Srv → R β} (h : ∀ s, Q s (k s s).2) : Pres Q (get >>= k) := fun s => h s

/-- Take a handler apart. The rest is left to the given lemmas about parts and primitive updates. -/
macro "pres" h:term "using" ls:term,* : tactic => `(tactic|
  repeat' first
  | with_reducible assumption
  $[| with_reducible apply $ls]*
  | with_reducible exact pres_pure $h _
  | with_reducible exact pres_throw $h _
  | with_reducible exact pres_get $h
  | with_reducible apply pres_bind $h
  | with_reducible apply pres_ite
  | with_reducible apply pres_forEach $h
  | with_reducible apply pres_catch $h
  | with_reducible intro _
  | split)

/-! ## Log packs -/

theorem range_length (l : Log) (a b : Nat) : (l.range a b).length ≤ b - a := by
  unfold Log.range
  rw [List.length_take]
  omega

theorem packOf_mem {l : Log} {i : Nat} {c : Int} {es : List Entry} (h : packOf l i c = some es) {e : Entry} (he : e ∈ es) : e ∈ l.ents := by
  unfold packOf at h
  by_cases h1 : l.next ≤ i
  · rw [if_pos h1] at h; cases h; cases he
  rw [if_neg h1] at h
  by_cases h2 : 0 < c
  · rw [if_pos h2] at h; cases h
    exact List.mem_of_mem_drop (List.mem_of_mem_take he)
  rw [if_neg h2] at h
  by_cases h3 : c < 0 ∧ ((i - l.start : Nat) : Int) + c < 0
  · rw [if_pos h3] at h; cases h
    exact List.mem_of_mem_drop (List.mem_of_mem_take he)
  · rw [if_neg h3] at h; cases h

theorem packOf_length {l : Log} {i : Nat} {c : Int} {es : List Entry} (h : packOf l i c = some es) (hc : 0 ≤ c) : es.length ≤ c.toNat := by
  unfold packOf at h
  by_cases h1 : l.next ≤ i
  · rw [if_pos h1] at h; cases h; exact Nat.zero_le _
  rw [if_neg h1] at h
  by_cases h2 : 0 < c
  · rw [if_pos h2] at h; cases h
    have := range_length l i (i + c.toNat)
    omega
  rw [if_neg h2, if_neg (by omega)] at h
  cases h

theorem packOf_range {l : Log} {i : Nat} {c : Int} (h1 : i < l.next) (h2 : 0 < c) : packOf l i c = some (l.range i (i + c.toNat)) := by
  unfold packOf
  rw [if_neg (by omega), if_pos h2]

end Cs.Raft
