import Verif.Conc.Apply

/-!
# The state machine gets commands and snapshots one after the other, in the order of the log

For all schedules of the commit thread and the handlers.
-/

namespace Cs.Apply

/-! ## When the commit thread rests while snapshots are installed -/

/-- All commands up to `m` have been given to a state machine that is at `p`. -/
def Upto (E : Nat → Ent) (p m : Nat) : Prop := p ≤ m ∧ ∀ j, p < j → j ≤ m → (E j).isApp = false

/-- The index up to which the commit thread is done with the entries. -/
def St.lo (s : St) : Nat :=
  match s.pc with
  | .fetch | .call _ | .calling | .conf | .confHeld | .snap => s.sm - 1
  | _ => s.sm

/-- Where the commit thread is, with the state machine at `p` and a call running iff `b`. -/
def At (E : Nat → Ent) (s : St) (p : Nat) (b : Bool) : Prop :=
  match s.pc with
  | .idle => Upto E p s.sm ∧ b = false
  | .second => Upto E p s.sm ∧ b = false ∧ s.sm < s.qc
  | .load => Upto E p s.sm ∧ b = false ∧ s.sm < s.qc ∧ s.sm + 1 < s.next
  | .store v => v = s.sm ∧ Upto E p s.sm ∧ b = false ∧ s.sm < s.qc ∧ s.sm + 1 < s.next
  | .fetch => 0 < s.sm ∧ Upto E p (s.sm - 1) ∧ b = false ∧ s.sm ≤ s.qc ∧ s.sm < s.next
  | .call d => 0 < s.sm ∧ Upto E p (s.sm - 1) ∧ b = false ∧ s.sm ≤ s.qc ∧ E s.sm = .app d
  | .calling => 0 < s.sm ∧ p = s.sm ∧ b = true ∧ s.sm ≤ s.qc
  | .conf => 0 < s.sm ∧ Upto E p s.sm ∧ b = false ∧ s.sm ≤ s.qc
  | .confHeld => 0 < s.sm ∧ Upto E p s.sm ∧ b = false ∧ s.sm ≤ s.qc
  | .snap => 0 < s.sm ∧ Upto E p s.sm ∧ b = false ∧ s.sm ≤ s.qc
  | .dead => False

/-- Where the handler is. -/
def Installing (E : Nat → Ent) (s : St) (p : Nat) (b : Bool) : Prop :=
  match s.hc with
  | .idle => At E s p b
  | .checked i => s.pc = .idle ∧ s.sm < i ∧ s.start ≤ i ∧ Upto E p s.sm ∧ b = false
  | .compacted i => s.pc = .idle ∧ s.sm < i ∧ s.start = i + 1 ∧ Upto E p s.sm ∧ b = false
  | .applying i => s.pc = .idle ∧ s.sm < i ∧ s.start = i + 1 ∧ p = i ∧ b = true
  | .applied i => s.pc = .idle ∧ s.sm < i ∧ s.start = i + 1 ∧ p = i ∧ b = false
  | .moved i => s.pc = .idle ∧ s.sm = i ∧ s.start = i + 1 ∧ p = i ∧ b = false

/-- The log starts at or below the entry that is needed next. -/
def Room (s : St) : Prop :=
  match s.hc with
  | .idle => s.start ≤ s.lo + 1
  | _ => True

/-- The invariant. -/
structure Inv (E : Nat → Ent) (p0 : Nat) (s : St) : Prop where
  room : Room s
  next : s.start ≤ s.next
  made : s.made ≤ s.lo
  agrees : ∀ i, i < s.next → s.start ≤ i → i ≤ s.qc → s.at_ i = E i
  calls : ∃ p b, Orderly E p0 p b s.calls ∧ Installing E s p b

theorem Init.inv {E : Nat → Ent} {s : St} (h : Init E s) : Inv E s.sm s := by
  have hlo : s.lo = s.sm := by unfold St.lo; rw [h.pc]
  refine ⟨?_, h.next, by rw [h.made]; exact Nat.zero_le _, h.agrees, s.sm, false, by rw [h.calls]; exact .nil, ?_⟩
  · unfold Room; rw [h.hc]; rw [hlo]; exact h.start
  · unfold Installing At
    rw [h.hc, h.pc]
    exact ⟨⟨Nat.le_refl _, fun j h1 h2 => absurd (Nat.lt_of_lt_of_le h1 h2) (Nat.lt_irrefl _)⟩, rfl⟩

theorem Upto.succ {E : Nat → Ent} {p m : Nat} (h : Upto E p m) (he : (E (m + 1)).isApp = false) : Upto E p (m + 1) :=
  ⟨Nat.le_succ_of_le h.1, fun j h1 h2 => by
    by_cases hj : j = m + 1
    · rw [hj]; exact he
    · exact h.2 j h1 (by omega)⟩

theorem Upto.refl (E : Nat → Ent) (p : Nat) : Upto E p p := ⟨Nat.le_refl _, fun j h1 h2 => by omega⟩

/-- The commit thread makes a step while no snapshot is installed. -/
theorem Inv.commit {E : Nat → Ent} {p0 : Nat} {s s' : St} (h : Inv E p0 s) (hh : s.hc = .idle) (hs : s.commit = some s') : Inv E p0 s' := by
  obtain ⟨hroom, hnext, hmade, hag, p, b, ho, hi⟩ := h
  unfold Installing At at hi
  unfold Room at hroom
  rw [hh] at hi hroom
  dsimp only at hi hroom
  unfold St.commit at hs
  rcases hpc : s.pc with _ | _ | _ | v | _ | d | _ | _ | _ | _ | _
  all_goals rw [hpc] at hs hi
  all_goals dsimp only at hs hi
  all_goals unfold St.lo at hroom hmade
  all_goals rw [hpc] at hroom hmade
  all_goals dsimp only at hroom hmade
  · -- idle
    cases hs
    by_cases hlt : s.sm < s.qc
    · rw [if_pos hlt]
      exact ⟨by unfold Room; rw [hh]; exact hroom, hnext, hmade, hag, p, b, ho, by unfold Installing; rw [hh]; exact ⟨hi.1, hi.2, hlt⟩⟩
    · rw [if_neg hlt]
      exact ⟨by unfold Room; rw [hh]; exact hroom, hnext, hmade, hag, p, b, ho, by unfold Installing; rw [hh]; exact hi⟩
  · -- second
    cases hs
    by_cases hlt : s.sm < s.next - 1
    · rw [if_pos hlt]
      exact ⟨by unfold Room; rw [hh]; exact hroom, hnext, hmade, hag, p, b, ho, by unfold Installing; rw [hh]; exact ⟨hi.1, hi.2.1, hi.2.2, by show s.sm + 1 < s.next; omega⟩⟩
    · rw [if_neg hlt]
      exact ⟨by unfold Room; rw [hh]; exact hroom, hnext, hmade, hag, p, b, ho, by unfold Installing; rw [hh]; exact ⟨hi.1, hi.2.1⟩⟩
  · -- load
    cases hs
    exact ⟨by unfold Room; rw [hh]; exact hroom, hnext, hmade, hag, p, b, ho, by unfold Installing; rw [hh]; exact ⟨rfl, hi⟩⟩
  · -- store
    cases hs
    obtain ⟨rfl, h1, h2, h3, h4⟩ := hi
    exact ⟨by unfold Room; rw [hh]; exact hroom, hnext, hmade, hag, p, b, ho, by
      unfold Installing; rw [hh]; exact ⟨Nat.succ_pos _, h1, h2, h3, h4⟩⟩
  · -- fetch
    obtain ⟨h0, h1, h2, h3, h4⟩ := hi
    rw [if_pos ⟨by omega, h4⟩] at hs
    have he := hag s.sm h4 (by omega) h3
    rcases hat : s.at_ s.sm with d | n
    · rw [hat] at hs
      cases hs
      exact ⟨by unfold Room; rw [hh]; exact hroom, hnext, hmade, hag, p, b, ho, by
        unfold Installing; rw [hh]; exact ⟨h0, h1, h2, h3, by show E s.sm = _; rw [← he, hat]⟩⟩
    · rw [hat] at hs
      cases hs
      have hu : Upto E p s.sm := by
        have := h1.succ (by rw [show s.sm - 1 + 1 = s.sm by omega, ← he, hat]; rfl)
        rwa [show s.sm - 1 + 1 = s.sm by omega] at this
      exact ⟨by unfold Room; rw [hh]; exact hroom, hnext, hmade, hag, p, b, ho, by
        unfold Installing; rw [hh]; exact ⟨h0, hu, h2, h3⟩⟩
  · -- call
    cases hs
    obtain ⟨h0, h1, rfl, h3, h4⟩ := hi
    refine ⟨by unfold Room; rw [hh]; exact hroom, hnext, hmade, hag, s.sm, true, ?_, by
      unfold Installing; rw [hh]; exact ⟨h0, rfl, rfl, h3⟩⟩
    exact .commit ho (by have := h1.1; omega) h4 fun j h5 h6 => h1.2 j h5 (by omega)
  · -- calling
    cases hs
    obtain ⟨h0, rfl, rfl, h3⟩ := hi
    exact ⟨by unfold Room; rw [hh]; exact hroom, hnext, hmade, hag, s.sm, false, .done ho, by
      unfold Installing; rw [hh]; exact ⟨h0, Upto.refl _ _, rfl, h3⟩⟩
  · -- conf
    rw [if_pos hh] at hs
    cases hs
    exact ⟨by unfold Room; rw [hh]; exact hroom, hnext, hmade, hag, p, b, ho, by unfold Installing; rw [hh]; exact hi⟩
  · -- confHeld
    cases hs
    exact ⟨by unfold Room; rw [hh]; exact hroom, hnext, hmade, hag, p, b, ho, by unfold Installing; rw [hh]; exact hi⟩
  · -- snap
    cases hs
    refine ⟨?_, hnext, ?_, hag, p, b, ho, by unfold Installing; rw [hh]; exact ⟨hi.2.1, hi.2.2.1⟩⟩
    · unfold Room; rw [hh]; show s.start ≤ s.sm + 1; omega
    · show max s.made s.sm ≤ s.sm; omega

/-- The handler that installs a snapshot makes a step. -/
theorem Inv.handler {E : Nat → Ent} {p0 : Nat} {s s' : St} (h : Inv E p0 s) (hs : s.handler = some s') : Inv E p0 s' := by
  obtain ⟨hroom, hnext, hmade, hag, p, b, ho, hi⟩ := h
  unfold Installing at hi
  unfold St.handler at hs
  rcases hh : s.hc with _ | i | i | i | i | i
  all_goals rw [hh] at hs hi
  all_goals dsimp only at hs hi
  all_goals cases hs
  · -- checked
    obtain ⟨h1, h2, h3, h4, h5⟩ := hi
    refine ⟨trivial, ?_, hmade, ?_, p, b, ho, ⟨h1, h2, rfl, h4, h5⟩⟩
    · exact Nat.le_max_right _ _
    · intro k hk1 hk2 hk3
      have hk1 : k < max s.next (i + 1) := hk1
      have hk2 : i + 1 ≤ k := hk2
      exact hag k (by omega) (by omega) hk3
  · -- compacted
    obtain ⟨h1, h2, h3, h4, rfl⟩ := hi
    exact ⟨trivial, hnext, hmade, hag, i, true, .apply ho (by have := h4.1; omega), ⟨h1, h2, h3, rfl, rfl⟩⟩
  · -- applying
    obtain ⟨h1, h2, h3, rfl, rfl⟩ := hi
    exact ⟨trivial, hnext, hmade, hag, p, false, .done ho, ⟨h1, h2, h3, rfl, rfl⟩⟩
  · -- applied
    obtain ⟨h1, h2, h3, rfl, rfl⟩ := hi
    refine ⟨trivial, hnext, ?_, hag, p, false, ho, ⟨h1, rfl, h3, rfl, rfl⟩⟩
    unfold St.lo at hmade ⊢
    rw [h1] at hmade
    show s.made ≤ (match s.pc with | .fetch | .call _ | .calling | .conf | .confHeld | .snap => p - 1 | _ => p)
    rw [h1]
    dsimp only at hmade ⊢
    omega
  · -- moved
    obtain ⟨h1, h2, h3, rfl, rfl⟩ := hi
    refine ⟨?_, hnext, hmade, ?_, p, false, ho, ?_⟩
    · unfold Room St.lo
      show s.start ≤ (match s.pc with | .fetch | .call _ | .calling | .conf | .confHeld | .snap => s.sm - 1 | _ => s.sm) + 1
      rw [h1]
      dsimp only
      omega
    · intro k hk1 hk2 hk3
      have hk2 : s.start ≤ k := hk2
      have hk3 : k ≤ p := hk3
      omega
    · unfold Installing At
      dsimp only
      rw [h1]
      exact ⟨by rw [h2]; exact Upto.refl _ _, rfl⟩

/-- The other handlers. -/
theorem Inv.other {E : Nat → Ent} {p0 : Nat} {s s' : St} (h : Inv E p0 s) {a : Act} (hl : Legal E s a) (ha : Apart s a)
    (h1 : a ≠ .commit) (h2 : a ≠ .handler) (hs : s.step a = some s') : Inv E p0 s' := by
  obtain ⟨hroom, hnext, hmade, hag, p, b, ho, hi⟩ := h
  have hfree : ∀ {c : Bool}, s.free = c → c = true → s.hc = .idle := by
    intro c hc hc'
    rw [hc'] at hc
    unfold St.free at hc
    rw [Bool.and_eq_true] at hc
    exact eq_of_beq hc.1
  cases a with
  | commit => exact absurd rfl h1
  | handler => exact absurd rfl h2
  | advance n =>
    unfold St.step at hs
    dsimp only at hs
    by_cases hf : s.free = true
    · rw [if_pos hf] at hs
      cases hs
      have hh := hfree rfl hf
      unfold Installing At at hi
      rw [hh] at hi
      dsimp only at hi
      refine ⟨hroom, hnext, hmade, ?_, p, b, ho, ?_⟩
      · intro i hi1 hi2 hi3
        by_cases hq : i ≤ s.qc
        · exact hag i hi1 hi2 hq
        · have hi3 : i ≤ max s.qc n := hi3
          exact hl i hi1 hi2 (by omega)
      · unfold Installing At
        dsimp only
        rw [hh]
        dsimp only
        rcases hpc : s.pc with _ | _ | _ | v | _ | d | _ | _ | _ | _ | _
        all_goals rw [hpc] at hi
        all_goals dsimp only at hi ⊢
        · exact hi
        · exact ⟨hi.1, hi.2.1, by omega⟩
        · exact ⟨hi.1, hi.2.1, by omega, hi.2.2.2⟩
        · exact ⟨hi.1, hi.2.1, hi.2.2.1, by omega, hi.2.2.2.2⟩
        · exact ⟨hi.1, hi.2.1, hi.2.2.1, by omega, hi.2.2.2.2⟩
        · exact ⟨hi.1, hi.2.1, hi.2.2.1, by omega, hi.2.2.2.2⟩
        · exact ⟨hi.1, hi.2.1, hi.2.2.1, by omega⟩
        · exact ⟨hi.1, hi.2.1, hi.2.2.1, by omega⟩
        · exact ⟨hi.1, hi.2.1, hi.2.2.1, by omega⟩
        · exact ⟨hi.1, hi.2.1, hi.2.2.1, by omega⟩
    · rw [if_neg hf] at hs; cases hs
  | append e =>
    unfold St.step at hs
    dsimp only at hs
    by_cases hf : s.free = true
    · rw [if_pos hf] at hs
      cases hs
      have hh := hfree rfl hf
      unfold Installing At at hi
      rw [hh] at hi
      dsimp only at hi
      refine ⟨hroom, Nat.le_succ_of_le hnext, hmade, ?_, p, b, ho, ?_⟩
      · intro i hi1 hi2 hi3
        have hi1 : i < s.next + 1 := hi1
        show (if i = s.next then e else s.at_ i) = E i
        by_cases hin : i = s.next
        · subst hin
          rw [if_pos rfl]
          exact hl hi3
        · rw [if_neg hin]
          exact hag i (by omega) hi2 hi3
      · unfold Installing At
        dsimp only
        rw [hh]
        dsimp only
        rcases hpc : s.pc with _ | _ | _ | v | _ | d | _ | _ | _ | _ | _
        all_goals rw [hpc] at hi
        all_goals dsimp only at hi ⊢
        · exact hi
        · exact hi
        · exact ⟨hi.1, hi.2.1, hi.2.2.1, by omega⟩
        · exact ⟨hi.1, hi.2.1, hi.2.2.1, hi.2.2.2.1, by omega⟩
        · exact ⟨hi.1, hi.2.1, hi.2.2.1, hi.2.2.2.1, by omega⟩
        · exact hi
        · exact hi
        · exact hi
        · exact hi
        · exact hi
    · rw [if_neg hf] at hs; cases hs
  | rewrite k e =>
    unfold St.step at hs
    dsimp only at hs
    by_cases hf : s.free = true ∧ s.start ≤ k ∧ k < s.next
    · rw [if_pos hf] at hs
      cases hs
      have hh := hfree rfl hf.1
      have hl : s.qc < k := hl
      unfold Installing At at hi
      rw [hh] at hi
      dsimp only at hi
      refine ⟨hroom, Nat.le_succ_of_le hf.2.1, hmade, ?_, p, b, ho, ?_⟩
      · intro i hi1 hi2 hi3
        have hi1 : i < k + 1 := hi1
        have hi3 : i ≤ s.qc := hi3
        show (if i = k then e else s.at_ i) = E i
        rw [if_neg (by omega)]
        exact hag i (by omega) hi2 hi3
      · unfold Installing At
        dsimp only
        rw [hh]
        dsimp only
        rcases hpc : s.pc with _ | _ | _ | v | _ | d | _ | _ | _ | _ | _
        all_goals rw [hpc] at hi
        all_goals dsimp only at hi ⊢
        · exact hi
        · exact hi
        · exact ⟨hi.1, hi.2.1, hi.2.2.1, by omega⟩
        · exact ⟨hi.1, hi.2.1, hi.2.2.1, hi.2.2.2.1, by omega⟩
        · exact ⟨hi.1, hi.2.1, hi.2.2.1, hi.2.2.2.1, by omega⟩
        · exact hi
        · exact hi
        · exact hi
        · exact hi
        · exact hi
    · rw [if_neg hf] at hs; cases hs
  | compact k =>
    unfold St.step at hs
    dsimp only at hs
    by_cases hf : s.free = true ∧ s.start ≤ k ∧ k ≤ s.made
    · rw [if_pos hf] at hs
      cases hs
      have hh := hfree rfl hf.1
      unfold Installing At at hi
      rw [hh] at hi
      dsimp only at hi
      refine ⟨?_, Nat.le_max_right _ _, hmade, ?_, p, b, ho, ?_⟩
      · unfold Room
        show (match s.hc with | .idle => k + 1 ≤ s.lo + 1 | _ => True)
        rw [hh]
        have := hf.2.2
        dsimp only
        omega
      · intro i hi1 hi2 hi3
        have hi1 : i < max s.next (k + 1) := hi1
        have hi2 : k + 1 ≤ i := hi2
        exact hag i (by omega) (by omega) hi3
      · unfold Installing At St.compacted
        dsimp only
        rw [hh]
        dsimp only
        rcases hpc : s.pc with _ | _ | _ | v | _ | d | _ | _ | _ | _ | _
        all_goals rw [hpc] at hi
        all_goals dsimp only at hi ⊢
        · exact hi
        · exact hi
        · exact ⟨hi.1, hi.2.1, hi.2.2.1, by omega⟩
        · exact ⟨hi.1, hi.2.1, hi.2.2.1, hi.2.2.2.1, by omega⟩
        · exact ⟨hi.1, hi.2.1, hi.2.2.1, hi.2.2.2.1, by omega⟩
        · exact hi
        · exact hi
        · exact hi
        · exact hi
        · exact hi
    · rw [if_neg hf] at hs; cases hs
  | install i =>
    unfold St.step at hs
    dsimp only at hs
    by_cases hf : s.free = true ∧ s.sm < i ∧ s.start ≤ i
    · rw [if_pos hf] at hs
      cases hs
      have hh := hfree rfl hf.1
      have hpc := ha.1 i rfl
      unfold Installing At at hi
      rw [hh, hpc] at hi
      exact ⟨trivial, hnext, hmade, hag, p, b, ho, ⟨hpc, hf.2.1, hf.2.2, hi⟩⟩
    · rw [if_neg hf] at hs; cases hs

theorem Inv.step {E : Nat → Ent} {p0 : Nat} {s s' : St} (h : Inv E p0 s) {a : Act} (hl : Legal E s a) (ha : Apart s a)
    (hs : s.step a = some s') : Inv E p0 s' := by
  by_cases h1 : a = .commit
  · subst h1
    by_cases hh : s.hc = .idle
    · exact h.commit hh hs
    · exact absurd rfl (ha.2 hh)
  by_cases h2 : a = .handler
  · subst h2; exact h.handler hs
  exact h.other hl ha h1 h2 hs

theorem Run.inv {E : Nat → Ent} {s0 s : St} (h0 : Init E s0) (h : Run E Apart s0 s) : Inv E s0.sm s := by
  induction h with
  | refl => exact h0.inv
  | step _ hl ha hs ih => exact ih.step hl ha hs

/-- Partial: in all schedules in which the commit thread is at rest while a snapshot is installed, the state machine gets commands and
snapshots one after the other, each command is the committed one of the index it is given with, none is left out, and the server does
not end. -/
theorem calls_in_order_partial {E : Nat → Ent} {s0 s : St} (h0 : Init E s0) (h : Run E Apart s0 s) :
    InOrder E s0.sm s.calls ∧ s.pc ≠ .dead := by
  obtain ⟨_, _, _, _, p, b, ho, hi⟩ := h.inv h0
  refine ⟨⟨p, b, ho⟩, fun hd => ?_⟩
  unfold Installing At at hi
  rcases hh : s.hc with _ | i | i | i | i | i
  all_goals rw [hh] at hi
  all_goals dsimp only at hi
  all_goals rw [hd] at hi
  · exact hi
  all_goals exact absurd hi.1 (by intro h; cases h)

/-- When both threads are at rest the state machine has got all commands up to the index the server has recorded. -/
theorem all_applied_partial {E : Nat → Ent} {s0 s : St} (h0 : Init E s0) (h : Run E Apart s0 s) (h1 : s.pc = .idle) (h2 : s.hc = .idle) :
    ∃ p, Orderly E s0.sm p false s.calls ∧ p ≤ s.sm ∧ ∀ j, p < j → j ≤ s.sm → (E j).isApp = false := by
  obtain ⟨_, _, _, _, p, b, ho, hi⟩ := h.inv h0
  unfold Installing At at hi
  rw [h2, h1] at hi
  obtain ⟨hu, rfl⟩ := hi
  exact ⟨p, ho, hu.1, hu.2⟩

/-- Actions other than installing a snapshot. -/
def NoInstall (_ : St) (a : Act) : Prop := ∀ i, a ≠ .install i

/-- So for servers that receive no snapshot it holds for all schedules. -/
theorem calls_in_order_without_snapshots {E : Nat → Ent} {s0 s : St} (h0 : Init E s0) (h : Run E NoInstall s0 s) :
    InOrder E s0.sm s.calls ∧ s.pc ≠ .dead := by
  have key : Run E Apart s0 s ∧ s.hc = .idle := by
    induction h with
    | refl => exact ⟨.refl, h0.hc⟩
    | @step s1 s2 a _ hl ha hs ih =>
      obtain ⟨h1, h2⟩ := ih
      refine ⟨.step h1 hl ⟨fun i hi => absurd hi (ha i), fun hne => absurd h2 hne⟩ hs, ?_⟩
      cases a with
      | install i => exact absurd rfl (ha i)
      | handler => unfold St.step St.handler at hs; dsimp only at hs; rw [h2] at hs; cases hs
      | commit =>
        unfold St.step St.commit at hs
        dsimp only at hs
        split at hs
        all_goals first
          | (cases hs; exact h2)
          | (split at hs
             · first
               | (split at hs <;> (cases hs; exact h2))
               | (cases hs; exact h2)
             · cases hs; exact h2)
          | cases hs
        all_goals (rw [if_pos h2] at hs; cases hs; exact h2)
      | advance => unfold St.step at hs; dsimp only at hs; split at hs <;> cases hs; exact h2
      | append => unfold St.step at hs; dsimp only at hs; split at hs <;> cases hs; exact h2
      | rewrite => unfold St.step at hs; dsimp only at hs; split at hs <;> cases hs; exact h2
      | compact => unfold St.step at hs; dsimp only at hs; split at hs <;> cases hs; exact h2
  exact calls_in_order_partial h0 key.1

/-! ## Schedules -/

/-- Decides whether the calls are in order. -/
def observe (E : Nat → Ent) : Nat × Bool → List Call → Option (Nat × Bool)
  | q, [] => some q
  | (p, false), .commit i d :: l =>
    if p < i ∧ E i = .app d ∧ ∀ j, j < i → p < j → (E j).isApp = false then observe E (i, true) l else none
  | (p, false), .apply i :: l => if p < i then observe E (i, true) l else none
  | (p, true), .done :: l => observe E (p, false) l
  | _, _ => none

theorem observe_append (E : Nat → Ent) (l' : List Call) : ∀ (l : List Call) (q q' : Nat × Bool), observe E q l = some q' →
    observe E q (l ++ l') = observe E q' l'
  | [], q, q', h => by cases h; rfl
  | c :: l, (p, b), q', h => by
    cases b with
    | false =>
      cases c with
      | commit i d =>
        rw [List.cons_append]
        unfold observe at h
        split at h
        · rename_i hc; rw [observe.eq_def E (p, false) (_ :: _)]; dsimp only; rw [if_pos hc]; exact observe_append E l' l _ _ h
        · cases h
      | apply i =>
        rw [List.cons_append]
        unfold observe at h
        split at h
        · rename_i hc; rw [observe.eq_def E (p, false) (_ :: _)]; dsimp only; rw [if_pos hc]; exact observe_append E l' l _ _ h
        · cases h
      | done => cases h
    | true =>
      cases c with
      | done =>
        rw [List.cons_append]
        exact observe_append E l' l _ _ h
      | commit => cases h
      | apply => cases h

theorem Orderly.observed {E : Nat → Ent} {p0 p : Nat} {b : Bool} {l : List Call} (h : Orderly E p0 p b l) :
    observe E (p0, false) l = some (p, b) := by
  induction h with
  | nil => rfl
  | commit _ h1 h2 h3 ih =>
    rw [observe_append E _ _ _ _ ih]
    show (if _ then _ else _) = _
    rw [if_pos ⟨h1, h2, fun j h4 h5 => h3 j h5 h4⟩]
    rfl
  | apply _ h1 ih =>
    rw [observe_append E _ _ _ _ ih]
    show (if _ then _ else _) = _
    rw [if_pos h1]
    rfl
  | done _ ih => rw [observe_append E _ _ _ _ ih]; rfl

/-- The environment keeps to the protocol: `Legal`, by evaluation. -/
def legalB (E : Nat → Ent) (s : St) : Act → Bool
  | .advance n => decide (∀ i, i < s.next → s.start ≤ i → i ≤ n → s.at_ i = E i)
  | .append e => decide (s.next ≤ s.qc → e = E s.next)
  | .rewrite k _ => decide (s.qc < k)
  | _ => true

theorem legalB_sound {E : Nat → Ent} {s : St} {a : Act} (h : legalB E s a = true) : Legal E s a := by
  cases a with
  | advance n => unfold legalB at h; dsimp only at h; unfold Legal; exact of_decide_eq_true h
  | append e => unfold legalB at h; dsimp only at h; unfold Legal; exact of_decide_eq_true h
  | rewrite k e => unfold legalB at h; dsimp only at h; unfold Legal; exact of_decide_eq_true h
  | _ => trivial

/-- A legal schedule after which the state satisfies `P`. -/
def St.check (E : Nat → Ent) (P : St → Bool) : St → List Act → Bool
  | s, [] => P s
  | s, a :: l => legalB E s a && match s.step a with
    | some s' => s'.check E P l
    | none => false

theorem St.check_run {E : Nat → Ent} {P : St → Bool} {s0 : St} : ∀ (l : List Act) (s : St), Run E (fun _ _ => True) s0 s →
    s.check E P l = true → ∃ s', Run E (fun _ _ => True) s0 s' ∧ P s' = true
  | [], s, h, hc => ⟨s, h, hc⟩
  | a :: l, s, h, hc => by
    unfold St.check at hc
    rw [Bool.and_eq_true] at hc
    rcases hs : s.step a with _ | s'
    · rw [hs] at hc; cases hc.2
    · rw [hs] at hc
      exact St.check_run l s' (.step h (legalB_sound hc.1) trivial hs) hc.2

/-- The committed entries: a configuration, then commands. -/
def ents (i : Nat) : Ent := if i ≤ 1 then .conf 0 else .app i

/-- A member that has the first eight entries, and has applied the first two. The entry behind them (9) is not committed: it differs
from what will be. -/
def member : St := { sm := 2, qc := 2, start := 1, next := 10, at_ := fun i => if i = 9 then .app 0 else ents i }

theorem member_init : Init ents member := by
  refine ⟨by decide, by decide, rfl, rfl, ?_, rfl, rfl, rfl⟩
  intro i hi1 hi2 hi3
  have hi3 : i ≤ 2 := hi3
  show (if i = 9 then _ else ents i) = ents i
  rw [if_neg (by omega)]

/-- The commit thread takes `n` steps. -/
def steps (n : Nat) : List Act := List.replicate n .commit

/-- The handler that installs a snapshot takes `n` steps; with five it is done. -/
def installs (n : Nat) : List Act := List.replicate n .handler

/-- A case for `calls_in_order_partial`: two commands, snapshot 6, and the commands behind it. -/
example : member.check ents (fun s => s.pc == .idle && s.hc == .idle && s.sm == 8 &&
      s.calls == [.commit 3 3, .done, .commit 4 4, .done, .apply 6, .done, .commit 7 7, .done, .commit 8 8, .done])
    ([.advance 4] ++ steps 16 ++ [.install 6] ++ installs 5 ++ [.advance 8] ++ steps 16) = true := by decide +kernel

/-- The code violates the property (1): `apply_snapshot` is called while `commit` has not returned. -/
theorem snapshot_during_commit : ∃ s, Run ents (fun _ _ => True) member s ∧ s.calls = [.commit 3 3, .apply 6] ∧
    ¬ InOrder ents member.sm s.calls := by
  obtain ⟨s, h1, h2⟩ := St.check_run (s0 := member) (E := ents) (P := fun s => decide (s.calls = [.commit 3 3, .apply 6]))
    ([.advance 4] ++ steps 6 ++ [.install 6] ++ installs 2) member .refl (by decide +kernel)
  have h2 := of_decide_eq_true h2
  refine ⟨s, h1, h2, fun ⟨p, b, h⟩ => ?_⟩
  have := h.observed
  rw [h2] at this
  cases (show observe ents (2, false) [.commit 3 3, .apply 6] = none by decide +kernel).symm.trans this

/-- (2): A command that is part of the snapshot is committed after the snapshot was applied. -/
theorem command_after_snapshot : ∃ s, Run ents (fun _ _ => True) member s ∧ s.calls = [.apply 6, .done, .commit 3 3] ∧
    ¬ InOrder ents member.sm s.calls := by
  obtain ⟨s, h1, h2⟩ := St.check_run (s0 := member) (E := ents) (P := fun s => decide (s.calls = [.apply 6, .done, .commit 3 3]))
    ([.advance 4] ++ steps 5 ++ [.install 6] ++ installs 3 ++ steps 1) member .refl (by decide +kernel)
  have h2 := of_decide_eq_true h2
  refine ⟨s, h1, h2, fun ⟨p, b, h⟩ => ?_⟩
  have := h.observed
  rw [h2] at this
  cases (show observe ents (2, false) [.apply 6, .done, .commit 3 3] = none by decide +kernel).symm.trans this

/-- (3): A command is committed with the index of another one. -/
theorem command_with_other_index : ∃ s, Run ents (fun _ _ => True) member s ∧ s.calls = [.apply 6, .done, .commit 6 3] ∧
    ¬ InOrder ents member.sm s.calls := by
  obtain ⟨s, h1, h2⟩ := St.check_run (s0 := member) (E := ents) (P := fun s => decide (s.calls = [.apply 6, .done, .commit 6 3]))
    ([.advance 4] ++ steps 5 ++ [.install 6] ++ installs 4 ++ steps 1) member .refl (by decide +kernel)
  have h2 := of_decide_eq_true h2
  refine ⟨s, h1, h2, fun ⟨p, b, h⟩ => ?_⟩
  have := h.observed
  rw [h2] at this
  cases (show observe ents (2, false) [.apply 6, .done, .commit 6 3] = none by decide +kernel).symm.trans this

/-- (4): After snapshot 8 the entry behind it is committed, which is not a committed entry of the cluster. -/
theorem uncommitted_command : ∃ s, Run ents (fun _ _ => True) member s ∧ s.calls = [.apply 8, .done, .commit 9 0] ∧ s.qc = 8 ∧
    ¬ InOrder ents member.sm s.calls := by
  obtain ⟨s, h1, h2⟩ := St.check_run (s0 := member) (E := ents) (P := fun s => decide (s.calls = [.apply 8, .done, .commit 9 0] ∧ s.qc = 8))
    ([.advance 4] ++ steps 2 ++ [.install 8] ++ installs 5 ++ steps 4) member .refl (by decide +kernel)
  have h2 := of_decide_eq_true h2
  refine ⟨s, h1, h2.1, h2.2, fun ⟨p, b, h⟩ => ?_⟩
  have := h.observed
  rw [h2.1] at this
  cases (show observe ents (2, false) [.apply 8, .done, .commit 9 0] = none by decide +kernel).symm.trans this

/-- (5): The commit thread asks for an entry that the snapshot has removed, or for one that does not exist yet, and the process ends. -/
theorem snapshot_ends_process :
    (∃ s, Run ents (fun _ _ => True) member s ∧ s.pc = .dead ∧ s.sm < s.start) ∧
    ∃ s, Run ents (fun _ _ => True) member s ∧ s.pc = .dead ∧ s.next ≤ s.sm := by
  constructor
  · obtain ⟨s, h1, h2⟩ := St.check_run (s0 := member) (E := ents) (P := fun s => decide (s.pc = .dead ∧ s.sm < s.start))
      ([.advance 4] ++ steps 4 ++ [.install 6] ++ installs 1 ++ steps 1) member .refl (by decide +kernel)
    exact ⟨s, h1, of_decide_eq_true h2⟩
  · obtain ⟨s, h1, h2⟩ := St.check_run (s0 := member) (E := ents) (P := fun s => decide (s.pc = .dead ∧ s.next ≤ s.sm))
      ([.advance 4] ++ steps 2 ++ [.install 12] ++ installs 5 ++ steps 3) member .refl (by decide +kernel)
    exact ⟨s, h1, of_decide_eq_true h2⟩

end Cs.Apply
