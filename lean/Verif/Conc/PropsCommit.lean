import Verif.Conc.Commit

/-!
# Waking and ending the commit thread (C54, C59)
-/

namespace Cs.Commit

/-! ## Specification -/

/-- The commit thread waits although there is an entry to apply, and no handler runs that could wake it. -/
def St.stuck (s : St) : Prop := s.c = .waiting ∧ s.sm < s.quick ∧ s.sm < s.next - 1 ∧ s.k = .idle

/-- In no action `commit` decides about the notification while the commit thread is between its test and the wait, and an entry
is appended without a call of `commit` only behind the commit index. -/
def Calm (conf : Nat → Bool) (s : St) (as : List Act) : Prop :=
  ∀ pre a post, as = pre ++ a :: post →
    (a = .srv → (run conf s pre).k = .tell → (run conf s pre).c ≠ .toLock ∧ (run conf s pre).c ≠ .locked) ∧
    (∀ n, a = .log n → (run conf s pre).quick < (run conf s pre).next ∧ (run conf s pre).next ≤ n)

/-- No thread wakes up without notification. -/
def NoWake (as : List Act) : Prop := ∀ t, Act.wake t ∉ as

/-! ## Executions -/

theorem run_append (conf : Nat → Bool) (s : St) (as bs : List Act) : run conf s (as ++ bs) = run conf (run conf s as) bs :=
  List.foldl_append ..
theorem run_snoc (conf : Nat → Bool) (s : St) (as : List Act) (a : Act) :
    run conf s (as ++ [a]) = step conf (run conf s as) a := run_append ..
theorem run_cons (conf : Nat → Bool) (s : St) (as : List Act) (a : Act) :
    run conf s (a :: as) = run conf (step conf s a) as := rfl

/-- Induction over executions. -/
theorem run_induct {conf : Nat → Bool} {s : St} {P : List Act → St → Prop} (h0 : P [] s)
    (h1 : ∀ as a, P as (run conf s as) → P (as ++ [a]) (step conf (run conf s as) a)) : ∀ as, P as (run conf s as) := by
  have : ∀ n as, as.length = n → P as (run conf s as) := by
    intro n
    induction n with
    | zero => intro as h; cases as with
      | nil => exact h0
      | cons _ _ => cases h
    | succ n ih =>
      intro as h
      rcases as.eq_nil_or_concat with rfl | ⟨l, a, rfl⟩
      · cases h
      · rw [List.concat_eq_append] at h ⊢
        rw [run_snoc]
        exact h1 l a (ih l (by simpa using h))
  exact fun as => this _ as rfl

theorem work_iff (s : St) : s.work = true ↔ s.sm < s.quick ∧ s.sm < s.next - 1 := by
  unfold St.work
  simp

/-! ## Who holds the mutexes -/

/-- A handler runs. -/
def KPc.busy : KPc → Bool
  | .idle => false
  | _ => true

/-- The owner of `lock_`. -/
def lockOf (c : CPc) (k : Bool) (d : DPc) : Option Th :=
  if c = .confHeld then some .commit else if k then some .srv else if d = .start then none else some .dtor
/-- The owner of `commit_lock_`. -/
def commitLockOf (c : CPc) (d : DPc) : Option Th :=
  if c = .locked ∨ c = .test then some .commit else if d = .tell ∨ d = .toStop ∨ d = .unlock then some .dtor else none
/-- The owner of `stopping_lock_`. -/
def stopLockOf (c : CPc) (d : DPc) : Option Th :=
  if c = .byeHeld then some .commit else if d = .unlock ∨ d = .toWait then some .dtor else none
/-- `stopping_`. -/
def stoppingOf (d : DPc) : Bool := decide (d ≠ .start ∧ d ≠ .stop)
/-- No mutex has two owners, and the thread ends only when it has to. -/
def apart (c : CPc) (k : Bool) (d : DPc) : Bool :=
  !(decide (c = .confHeld) && k) && !(decide (c = .confHeld) && decide (d ≠ .start)) && !(k && decide (d ≠ .start)) &&
  !(decide (c = .locked ∨ c = .test) && decide (d = .tell ∨ d = .toStop ∨ d = .unlock)) &&
  !(decide (c = .byeHeld) && decide (d = .unlock ∨ d = .toWait)) &&
  !(decide (c = .bye ∨ c = .byeHeld ∨ c = .ended) && decide (d = .start ∨ d = .stop))

/-- The invariant. -/
structure Own (s : St) : Prop where
  lock : s.lock = lockOf s.c s.k.busy s.d
  commitLock : s.commitLock = commitLockOf s.c s.d
  stopLock : s.stopLock = stopLockOf s.c s.d
  stopping : s.stopping = stoppingOf s.d
  apart : apart s.c s.k.busy s.d = true

theorem own_tell {s : St} (h : Own s) : Own s.tell := by
  obtain ⟨quick, sm, next, stopping, lock, commitLock, stopLock, c, k, d⟩ := s
  obtain ⟨h1, h2, h3, h4, h5⟩ := h
  cases c with
  | waiting => exact ⟨h1, h2, h3, h4, h5⟩
  | _ => exact ⟨h1, h2, h3, h4, h5⟩

local macro "own" hk:ident : tactic => `(tactic| (
  repeat' split
  all_goals constructor
  all_goals first
    | rfl
    | exact absurd rfl ‹¬ _ = none›
    | (simp only [$hk:ident]; done)
    | (simp only [$hk:ident]; rfl)
    | (rename_i h _; exact absurd h (by decide))
    | (rename_i h; exact absurd h (by decide))))

theorem own_commit (conf : Nat → Bool) {s : St} (h : Own s) : Own (stepCommit conf s) := by
  obtain ⟨quick, sm, next, stopping, lock, commitLock, stopLock, c, k, d⟩ := s
  obtain ⟨h1, h2, h3, h4, h5⟩ := h
  dsimp only at h1 h2 h3 h4 h5
  subst h1 h2 h3 h4
  generalize hk : k.busy = kb at h5
  cases c <;> cases d <;> cases kb <;> first | exact absurd h5 (by decide) | skip
  all_goals unfold stepCommit
  all_goals dsimp only
  all_goals own hk

theorem own_dtor {s : St} (h : Own s) : Own (stepDtor s) := by
  obtain ⟨quick, sm, next, stopping, lock, commitLock, stopLock, c, k, d⟩ := s
  obtain ⟨h1, h2, h3, h4, h5⟩ := h
  dsimp only at h1 h2 h3 h4 h5
  subst h1 h2 h3 h4
  generalize hk : k.busy = kb at h5
  cases c <;> cases d <;> cases kb <;> first | exact absurd h5 (by decide) | skip
  all_goals unfold stepDtor
  all_goals try unfold St.tell
  all_goals dsimp only
  all_goals own hk

theorem own_srv {s : St} (h : Own s) : Own (stepSrv s) := by
  have ht := own_tell h
  have ha : ∀ c d, apart c true d = true → d = .start ∧ c ≠ .confHeld := by
    intro c d; cases c <;> cases d <;> decide
  unfold stepSrv
  split
  · exact h
  · rename_i t hk
    obtain ⟨h1, h2, h3, h4, h5⟩ := h
    rw [hk] at h1 h5
    exact ⟨h1, h2, h3, h4, h5⟩
  · rename_i hk
    obtain ⟨h1, h2, h3, h4, h5⟩ := h
    rw [hk] at h1 h5
    obtain ⟨hd, hc⟩ := ha _ _ h5
    have e1 : ∀ c, c ≠ CPc.confHeld → (none : Option Th) = lockOf c false .start := by intro c hc; cases c <;> first | rfl | exact absurd rfl hc
    have e2 : ∀ c, apart c true .start = true → apart c false .start = true := by intro c; cases c <;> decide
    split
    · obtain ⟨g1, g2, g3, g4, g5⟩ := ht
      have hc' : s.tell.c ≠ .confHeld := by
        show (if s.c = .waiting then CPc.woken else s.c) ≠ _
        split
        · intro h; cases h
        · exact hc
      rw [show s.tell.d = s.d from rfl, hd, show s.tell.k = s.k from rfl, hk] at g5
      refine ⟨?_, g2, g3, g4, ?_⟩
      · show none = lockOf s.tell.c false s.d
        rw [hd]; exact e1 _ hc'
      · show apart s.tell.c false s.d = true
        rw [hd]; exact e2 _ g5
    · refine ⟨?_, h2, h3, h4, ?_⟩
      · show none = lockOf s.c false s.d
        rw [hd]; exact e1 _ hc
      · show apart s.c false s.d = true
        rw [hd] at h5 ⊢; exact e2 _ h5

theorem own_step (conf : Nat → Bool) {s : St} (h : Own s) (a : Act) : Own (step conf s a) := by
  have hl : ∀ c k d, lockOf c k d = none → k = false ∧ d = .start ∧ c ≠ .confHeld := by
    intro c k d; cases c <;> cases k <;> cases d <;> decide
  have hl' : ∀ c, c ≠ CPc.confHeld → some Th.srv = lockOf c true .start ∧
      (apart c false .start = true → apart c true .start = true) := by
    intro c hc; cases c <;> first | decide | exact absurd rfl hc
  cases a with
  | commit => exact own_commit conf h
  | srv => exact own_srv h
  | dtor => exact own_dtor h
  | handle n t =>
    show Own (if s.lock = none then _ else _)
    split
    · rename_i hn
      obtain ⟨h1, h2, h3, h4, h5⟩ := h
      obtain ⟨e1, e2, e3⟩ := hl _ _ _ (h1.symm.trans hn)
      rw [e1, e2] at h5
      refine ⟨?_, h2, h3, h4, ?_⟩
      · show some Th.srv = lockOf s.c true s.d
        rw [e2]; exact (hl' _ e3).1
      · show apart s.c true s.d = true
        rw [e2]; exact (hl' _ e3).2 h5
    · exact h
  | log n =>
    show Own (if s.lock = none then _ else _)
    split
    · exact ⟨h.1, h.2, h.3, h.4, h.5⟩
    · exact h
  | wake t =>
    cases t with
    | commit =>
      show Own (if s.c = .waiting then _ else _)
      split
      · rename_i hc
        obtain ⟨h1, h2, h3, h4, h5⟩ := h
        rw [hc] at h1 h2 h3 h5
        exact ⟨h1, h2, h3, h4, h5⟩
      · exact h
    | dtor =>
      show Own (if s.d = .waiting then _ else _)
      split
      · rename_i hc
        obtain ⟨h1, h2, h3, h4, h5⟩ := h
        rw [hc] at h1 h2 h3 h4 h5
        have e : ∀ c k, apart c k .waiting = true → apart c k .woken = true ∧
            commitLockOf c .waiting = commitLockOf c .woken ∧ stopLockOf c .waiting = stopLockOf c .woken ∧
            lockOf c k .waiting = lockOf c k .woken := by
          intro c k; cases c <;> cases k <;> decide
        obtain ⟨g1, g2, g3, g4⟩ := e _ _ h5
        exact ⟨h1.trans g4, h2.trans g2, h3.trans g3, h4, g1⟩
      · exact h
    | srv => exact h

theorem own_run (conf : Nat → Bool) (sm next : Nat) : ∀ as, Own (run conf (St.init sm next) as) :=
  run_induct (P := fun _ s => Own s) ⟨rfl, rfl, rfl, rfl, rfl⟩ fun _ a h => own_step conf h a

/-! ## The commit thread on its own -/

theorem run_reps (conf : Nat → Bool) (s : St) (m n : Nat) :
    run conf s (List.replicate (m + n) .commit) = run conf (run conf s (List.replicate m .commit)) (List.replicate n .commit) := by
  rw [← List.replicate_append_replicate, run_append]

/-- The inner loop, lines 911-940. -/
theorem loop_applies (conf : Nat → Bool) : ∀ m s, s.c = .loop → s.lock = none → min s.quick (s.next - 1) - s.sm = m →
    ∃ n, run conf s (List.replicate n .commit) = { s with sm := s.sm + m, c := .check } := by
  intro m
  induction m with
  | zero =>
    intro s hc hl hm
    refine ⟨1, ?_⟩
    show stepCommit conf s = _
    unfold stepCommit
    rw [hc]
    have : s.work = false := by
      rw [Bool.eq_false_iff]
      intro h
      rw [work_iff] at h
      omega
    show (if s.work then _ else _) = _
    rw [this]
    rfl
  | succ m ih =>
    intro s hc hl hm
    have hw : s.work = true := by rw [work_iff]; omega
    have h1 : stepCommit conf s = { s with sm := s.sm + 1, c := .entry } := by
      unfold stepCommit
      rw [hc]
      show (if s.work then _ else _) = _
      rw [hw]
      rfl
    have h2 : ∃ n, run conf s (List.replicate n .commit) = { s with sm := s.sm + 1, c := .loop } := by
      cases hconf : conf (s.sm + 1) with
      | false =>
        refine ⟨2, ?_⟩
        show stepCommit conf (stepCommit conf s) = _
        rw [h1]
        show (if conf (s.sm + 1) then _ else _) = _
        rw [hconf]
        rfl
      | true =>
        refine ⟨4, ?_⟩
        show stepCommit conf (stepCommit conf (stepCommit conf (stepCommit conf s))) = _
        rw [h1]
        have h3 : stepCommit conf { s with sm := s.sm + 1, c := .entry } = { s with sm := s.sm + 1, c := .conf } := by
          show (if conf (s.sm + 1) then _ else _) = _
          rw [hconf]
          rfl
        have h4 : stepCommit conf { s with sm := s.sm + 1, c := .conf } =
            { s with sm := s.sm + 1, c := .confHeld, lock := some .commit } := by
          show (if s.lock = none then _ else _) = _
          rw [if_pos hl]
        rw [h3, h4]
        show ({ s with sm := s.sm + 1, c := .loop, lock := none } : St) = _
        rw [← hl]
    obtain ⟨n, hn⟩ := h2
    obtain ⟨n', hn'⟩ := ih { s with sm := s.sm + 1, c := .loop } rfl hl (by
      show min s.quick (s.next - 1) - (s.sm + 1) = m
      omega)
    refine ⟨n + n', ?_⟩
    rw [run_reps, hn, hn']
    show ({ s with sm := s.sm + 1 + m, c := .check } : St) = _
    rw [Nat.add_assoc, Nat.add_comm 1 m]

/-- What is applied when the commit thread has caught up. -/
def St.goal (s : St) : Nat := max s.sm (min s.quick (s.next - 1))

/-- The thread catches up from its test. -/
theorem check_applies (conf : Nat → Bool) {s : St} (hc : s.c = .check) (hl : s.lock = none) :
    ∃ n, (run conf s (List.replicate n .commit)).sm = s.goal := by
  cases hw : s.work with
  | false =>
    refine ⟨0, ?_⟩
    show s.sm = max s.sm (min s.quick (s.next - 1))
    have : ¬(s.sm < s.quick ∧ s.sm < s.next - 1) := by rw [← work_iff, hw]; simp
    omega
  | true =>
    have h1 : stepCommit conf s = { s with c := .loop } := by
      unfold stepCommit
      rw [hc]
      show (if s.work then _ else _) = _
      rw [hw]
      rfl
    obtain ⟨n, hn⟩ := loop_applies conf _ { s with c := .loop } rfl hl rfl
    refine ⟨1 + n, ?_⟩
    rw [run_reps]
    show (run conf (stepCommit conf s) _).sm = _
    rw [h1, hn]
    show s.sm + (min s.quick (s.next - 1) - s.sm) = max s.sm (min s.quick (s.next - 1))
    omega

/-- The thread catches up when it is in the inner loop. -/
theorem from_loop (conf : Nat → Bool) {s : St} (hc : s.c = .loop) (hl : s.lock = none) :
    ∃ n, (run conf s (List.replicate n .commit)).sm = s.goal := by
  obtain ⟨n, hn⟩ := loop_applies conf _ s hc hl rfl
  refine ⟨n, ?_⟩
  rw [hn]
  show s.sm + (min s.quick (s.next - 1) - s.sm) = max s.sm (min s.quick (s.next - 1))
  omega

theorem goal_step (conf : Nat → Bool) {s s' : St} (h : stepCommit conf s = s') (hg : s'.goal = s.goal)
    (hn : ∃ n, (run conf s' (List.replicate n .commit)).sm = s'.goal) :
    ∃ n, (run conf s (List.replicate n .commit)).sm = s.goal := by
  obtain ⟨n, hn⟩ := hn
  refine ⟨1 + n, ?_⟩
  rw [run_reps]
  show (run conf (stepCommit conf s) _).sm = _
  rw [h, hn, hg]

/-- The commit thread is between its test and the end of the wait. -/
def CPc.pausing (c : CPc) : Prop := c = .toLock ∨ c = .locked ∨ c = .waiting

theorem catches_up (conf : Nat → Bool) {s : St} (h : Own s) (hk : s.k = .idle) (hd : s.d = .start)
    (hp : s.c.pausing → s.work = false) : ∃ n, (run conf s (List.replicate n .commit)).sm = s.goal := by
  have hz : s.c.pausing → ∃ n, (run conf s (List.replicate n .commit)).sm = s.goal := by
    intro hc
    refine ⟨0, ?_⟩
    show s.sm = max s.sm (min s.quick (s.next - 1))
    have : ¬(s.sm < s.quick ∧ s.sm < s.next - 1) := by rw [← work_iff, hp hc]; simp
    omega
  obtain ⟨h1, h2, h3, h4, h5⟩ := h
  rw [hk, hd] at h1 h5
  rw [hd] at h2 h3 h4
  have hconf : s.c = .conf → ∃ n, (run conf s (List.replicate n .commit)).sm = s.goal := by
    intro hc
    rw [hc] at h1
    refine goal_step conf (s' := { s with lock := some .commit, c := .confHeld }) ?_ rfl ?_
    · unfold stepCommit; rw [hc]; exact if_pos h1
    · exact goal_step conf (s' := { s with lock := none, c := .loop }) rfl rfl (from_loop conf rfl rfl)
  rcases hc : s.c with _ | _ | _ | _ | _ | _ | _ | _ | _ | _ | _ | _ | _ <;> rw [hc] at h1 h2 h3 h5
  · exact check_applies conf hc h1
  · exact hz (.inl hc)
  · exact hz (.inr (.inl hc))
  · exact hz (.inr (.inr hc))
  · refine goal_step conf (s' := { s with commitLock := some .commit, c := .test }) ?_ rfl ?_
    · unfold stepCommit; rw [hc]; exact if_pos h2
    · refine goal_step conf (s' := { s with commitLock := none, c := .check }) ?_ rfl (check_applies conf rfl h1)
      show (if s.stopping then _ else _) = _
      rw [h4]
      rfl
  · refine goal_step conf (s' := { s with commitLock := none, c := .check }) ?_ rfl (check_applies conf rfl h1)
    unfold stepCommit
    rw [hc]
    show (if s.stopping then _ else _) = _
    rw [h4]
    rfl
  · exact from_loop conf hc h1
  · cases hcf : conf s.sm with
    | false =>
      refine goal_step conf (s' := { s with c := .loop }) ?_ rfl (from_loop conf rfl h1)
      unfold stepCommit
      rw [hc]
      show (if conf s.sm then _ else _) = _
      rw [hcf]
      rfl
    | true =>
      refine goal_step conf (s' := { s with c := .conf }) ?_ rfl ?_
      · unfold stepCommit
        rw [hc]
        show (if conf s.sm then _ else _) = _
        rw [hcf]
        rfl
      · refine goal_step conf (s' := { s with lock := some .commit, c := .confHeld }) (if_pos h1) rfl ?_
        exact goal_step conf (s' := { s with lock := none, c := .loop }) rfl rfl (from_loop conf rfl rfl)
  · exact hconf hc
  · refine goal_step conf (s' := { s with lock := none, c := .loop }) ?_ rfl (from_loop conf rfl rfl)
    unfold stepCommit; rw [hc]
  · exact absurd h5 (by decide)
  · exact absurd h5 (by decide)
  · exact absurd h5 (by decide)

/-! ## C54 -/

/-- When the commit thread pauses, there is nothing to apply or a handler is running. -/
def Watched (s : St) : Prop := s.c.pausing → s.work = true → s.k ≠ .idle

theorem watched_step (conf : Nat → Bool) {s : St} (h : Watched s) (a : Act)
    (h1 : a = .srv → s.k = .tell → s.c ≠ .toLock ∧ s.c ≠ .locked)
    (h2 : ∀ n, a = .log n → s.quick < s.next ∧ s.next ≤ n) : Watched (step conf s a) := by
  cases a with
  | commit =>
    show Watched (stepCommit conf s)
    unfold stepCommit
    rcases hc : s.c with _ | _ | _ | _ | _ | _ | _ | _ | _ | _ | _ | _ | _
    · show Watched (if s.work then _ else _)
      cases hw : s.work
      · intro _ h
        have : s.work = true := h
        rw [hw] at this; cases this
      · intro hp _
        rcases hp with hp | hp | hp <;> cases hp
    · show Watched (if s.commitLock = none then _ else _)
      split
      · exact fun _ hw => h (.inl hc) hw
      · exact h
    · exact fun _ hw => h (.inr (.inl hc)) hw
    · exact h
    · show Watched (if s.commitLock = none then _ else _)
      split
      · intro hp; rcases hp with hp | hp | hp <;> cases hp
      · exact h
    · show Watched (if s.stopping then _ else _)
      split <;> (intro hp; rcases hp with hp | hp | hp <;> cases hp)
    · show Watched (if s.work then _ else _)
      split <;> (intro hp; rcases hp with hp | hp | hp <;> cases hp)
    · show Watched (if conf s.sm then _ else _)
      split <;> (intro hp; rcases hp with hp | hp | hp <;> cases hp)
    · show Watched (if s.lock = none then _ else _)
      split
      · intro hp; rcases hp with hp | hp | hp <;> cases hp
      · exact h
    · intro hp; rcases hp with hp | hp | hp <;> cases hp
    · show Watched (if s.stopLock = none then _ else _)
      split
      · intro hp; rcases hp with hp | hp | hp <;> cases hp
      · exact h
    · intro hp; rcases hp with hp | hp | hp <;> cases hp
    · exact h
  | handle n t =>
    show Watched (if s.lock = none then _ else _)
    split
    · intro _ _ hk; cases hk
    · exact h
  | log n =>
    show Watched (if s.lock = none then _ else _)
    split
    · obtain ⟨g1, g2⟩ := h2 n rfl
      intro hp hw
      refine h hp ?_
      rw [work_iff] at hw ⊢
      have hw : s.sm < s.quick ∧ s.sm < n - 1 := hw
      omega
    · exact h
  | srv =>
    show Watched (stepSrv s)
    unfold stepSrv
    rcases hk : s.k with _ | t | _
    · exact h
    · intro _ _ hk; cases hk
    · obtain ⟨g1, g2⟩ := h1 rfl hk
      show Watched (if s.work then _ else _)
      cases hw : s.work
      · intro _ h
        have : s.work = true := h
        rw [hw] at this; cases this
      · intro hp
        have hp : (if s.c = .waiting then CPc.woken else s.c).pausing := hp
        by_cases hc : s.c = .waiting
        · rw [if_pos hc] at hp
          rcases hp with hp | hp | hp <;> cases hp
        · rw [if_neg hc] at hp
          rcases hp with hp | hp | hp
          · exact absurd hp g1
          · exact absurd hp g2
          · exact absurd hp hc
  | dtor =>
    show Watched (stepDtor s)
    have hsame : ∀ t : St, t.c = s.c ∨ (s.c = .waiting ∧ t.c = .woken) → t.k = s.k → t.sm = s.sm → t.quick = s.quick →
        t.next = s.next → Watched t := by
      intro t e1 e2 e3 e4 e5 hp hw
      rcases e1 with e1 | ⟨_, e1⟩
      · rw [e2]
        refine h (by rw [← e1]; exact hp) ?_
        rw [work_iff] at hw ⊢
        rw [e3, e4, e5] at hw
        exact hw
      · rw [e1] at hp
        rcases hp with hp | hp | hp <;> cases hp
    refine hsame _ ?_ ?_ ?_ ?_ ?_
    · unfold stepDtor
      split
      case h_4 =>
        show (if s.c = .waiting then CPc.woken else s.c) = s.c ∨ _ ∧ (if s.c = .waiting then CPc.woken else s.c) = _
        by_cases hc : s.c = .waiting
        · exact .inr ⟨hc, if_pos hc⟩
        · exact .inl (if_neg hc)
      all_goals first | exact .inl rfl | (split <;> exact .inl rfl)
    all_goals
      unfold stepDtor
      split <;> first | rfl | (split <;> rfl)
  | wake t =>
    cases t with
    | commit =>
      show Watched (if s.c = .waiting then _ else _)
      split
      · intro hp; rcases hp with hp | hp | hp <;> cases hp
      · exact h
    | dtor =>
      show Watched (if s.d = .waiting then _ else _)
      split
      · exact h
      · exact h
    | srv => exact h

theorem watched_run (conf : Nat → Bool) (sm next : Nat) : ∀ as, Calm conf (St.init sm next) as →
    Watched (run conf (St.init sm next) as) :=
  run_induct (P := fun as s => Calm conf (St.init sm next) as → Watched s)
    (fun _ hp => by rcases hp with hp | hp | hp <;> cases hp) fun as a ih h => by
      have hc := h as a [] rfl
      exact watched_step conf (ih fun pre b post e => h pre b (post ++ [a]) (by rw [e]; simp)) a hc.1 hc.2

/-- C54, for executions in which `commit` does not decide about the notification while the commit thread is between its test and
the wait: when no handler runs, the commit thread applies all entries up to the commit index by its own steps, without any other
event.

Missing: the other executions, `wakeup_lost`. -/
theorem committed_applied_partial (conf : Nat → Bool) (sm next : Nat) (as : List Act) (h : Calm conf (St.init sm next) as)
    (hk : (run conf (St.init sm next) as).k = .idle) (hd : (run conf (St.init sm next) as).d = .start) :
    ∃ n, (run conf (St.init sm next) (as ++ List.replicate n .commit)).sm =
      max (run conf (St.init sm next) as).sm
        (min (run conf (St.init sm next) as).quick ((run conf (St.init sm next) as).next - 1)) := by
  obtain ⟨n, hn⟩ := catches_up conf (own_run conf sm next as) hk hd fun hp => by
    rw [Bool.eq_false_iff]
    exact fun hw => watched_run conf sm next as h hp hw hk
  exact ⟨n, by rw [run_append]; exact hn⟩

/-- C54 fails: the commit thread finds nothing to do; then the commit index is raised and the notification is given; then the
thread waits. It waits on however often it is scheduled, although there is an entry to apply. -/
theorem wakeup_lost (conf : Nat → Bool) : ∃ as, (run conf (St.init 0 1) as).stuck ∧
    ∀ n, run conf (St.init 0 1) (as ++ List.replicate n .commit) = run conf (St.init 0 1) as := by
  refine ⟨[.commit, .handle 2 1, .srv, .srv, .commit, .commit], ⟨rfl, (by show (0 : Nat) < 1; decide), (by show (0 : Nat) < 1; decide), rfl⟩, fun n => ?_⟩
  rw [run_append]
  have hs : step conf (run conf (St.init 0 1) [.commit, .handle 2 1, .srv, .srv, .commit, .commit]) .commit =
      run conf (St.init 0 1) [.commit, .handle 2 1, .srv, .srv, .commit, .commit] := rfl
  generalize run conf (St.init 0 1) [.commit, .handle 2 1, .srv, .srv, .commit, .commit] = s at hs
  induction n with
  | zero => rfl
  | succ n ih => rw [List.replicate_succ, run_cons, hs, ih]

/-- A lost notification is made up for by the next call of `commit`, whatever its target, while the server runs. -/
theorem next_commit_wakes (conf : Nat → Bool) {s : St} (h : s.stuck) (hl : s.lock = none) (t : Nat) :
    (run conf s [.handle s.next t, .srv, .srv]).c = .woken ∧ (run conf s [.handle s.next t, .srv, .srv]).lock = none := by
  obtain ⟨h1, h2, h3, h4⟩ := h
  have e1 : step conf s (.handle s.next t) = { s with lock := some .srv, k := .raise t } := if_pos hl
  have e2 : step conf { s with lock := some .srv, k := .raise t } .srv =
      { s with lock := some .srv, quick := if s.quick < t then t else s.quick, k := .tell } := rfl
  have hw : ({ s with lock := some .srv, quick := if s.quick < t then t else s.quick, k := .tell } : St).work = true := by
    rw [work_iff]
    show s.sm < (if s.quick < t then t else s.quick) ∧ s.sm < s.next - 1
    split <;> omega
  rw [run_cons, e1, run_cons, e2]
  generalize hu : ({ s with lock := some .srv, quick := if s.quick < t then t else s.quick, k := .tell } : St) = u at hw
  have e3 : run conf u [.srv] = { u.tell with lock := none, k := .idle } := by
    show stepSrv u = _
    unfold stepSrv
    rw [show u.k = .tell by rw [← hu]]
    exact if_pos hw
  rw [e3]
  refine ⟨?_, rfl⟩
  show (if u.c = .waiting then CPc.woken else u.c) = _
  rw [← hu]
  exact if_pos h1

/-- `Calm`, by evaluation. -/
def calmB (conf : Nat → Bool) : St → List Act → Bool
  | _, [] => true
  | s, a :: as =>
    (!(decide (a = .srv) && decide (s.k = .tell)) || (decide (s.c ≠ .toLock) && decide (s.c ≠ .locked))) &&
    (match a with
      | .log n => decide (s.quick < s.next) && decide (s.next ≤ n)
      | _ => true) && calmB conf (step conf s a) as

theorem calm_of (conf : Nat → Bool) : ∀ as s, calmB conf s as = true → Calm conf s as := by
  intro as
  induction as with
  | nil => intro s _ pre a post e; cases pre <;> cases e
  | cons b bs ih =>
    intro s h pre a post e
    unfold calmB at h
    rw [Bool.and_eq_true, Bool.and_eq_true] at h
    obtain ⟨⟨h1, h2⟩, h3⟩ := h
    cases pre with
    | nil =>
      cases e
      refine ⟨fun ha hk => ?_, fun n ha => ?_⟩
      · have hk : s.k = .tell := hk
        rw [ha, hk] at h1
        show s.c ≠ .toLock ∧ s.c ≠ .locked
        simpa using h1
      · subst ha
        have h3 : s.quick < s.next ∧ s.next ≤ n := by simpa using h2
        exact h3
    | cons c pre =>
      cases e
      exact ih _ h3 pre a post rfl

/-- The hypotheses of the theorems can be met: an entry is applied after a wait, and there is a stuck state. -/
example : Calm (fun _ => false) (St.init 0 1) [.commit, .commit, .commit, .handle 2 1, .srv, .srv] ∧
    (run (fun _ => false) (St.init 0 1) [.commit, .commit, .commit, .handle 2 1, .srv, .srv]).c = .woken ∧
    (run (fun _ => false) (St.init 0 1)
      ([.commit, .commit, .commit, .handle 2 1, .srv, .srv] ++ List.replicate 4 .commit)).sm = 1 ∧
    (run (fun _ => false) (St.init 0 1) [.commit, .handle 2 1, .srv, .srv, .commit, .commit]).stuck ∧
    (run (fun _ => false) (St.init 0 1) [.commit, .handle 2 1, .srv, .srv, .commit, .commit]).lock = none :=
  ⟨calm_of _ _ _ (by decide), by decide, by decide, ⟨rfl, by decide, by decide, rfl⟩, rfl⟩

/-! ## C59 -/

/-- The state after the first `n` actions of an infinite execution. -/
def exec (conf : Nat → Bool) (s : St) (σ : Nat → Act) : Nat → St
  | 0 => s
  | n + 1 => step conf (exec conf s σ n) (σ n)

/-- Both threads get their turn again and again, and no thread wakes up without notification. -/
def Fair (σ : Nat → Act) : Prop :=
  (∀ n, ∃ m, n ≤ m ∧ σ m = .commit) ∧ (∀ n, ∃ m, n ≤ m ∧ σ m = .dtor) ∧ ∀ n t, σ n ≠ .wake t

/-- The course of the end: where the two threads are, and whose turn it is. -/
def stage (c : CPc) (d : DPc) : Option (Nat × Th) :=
  match d, c with
  | .toStop, .woken => some (10, .dtor)
  | .unlock, .woken => some (9, .dtor)
  | .toWait, .woken => some (8, .dtor)
  | .toWait, .test => some (7, .dtor)
  | .toWait, .bye => some (6, .dtor)
  | .waiting, .woken => some (5, .commit)
  | .waiting, .test => some (4, .commit)
  | .waiting, .bye => some (3, .commit)
  | .waiting, .byeHeld => some (2, .commit)
  | .woken, .ended => some (1, .dtor)
  | .done, .ended => some (0, .dtor)
  | _, _ => none

/-- The action of a thread. -/
def Th.act : Th → Act
  | .commit => .commit
  | .dtor => .dtor
  | .srv => .srv

theorem stage_step (conf : Nat → Bool) {s : St} (h : Own s) {n : Nat} {t : Th} (hs : stage s.c s.d = some (n, t)) (a : Act)
    (ha : ∀ t, a ≠ .wake t) :
    (step conf s a = s ∧ (n ≠ 0 → a ≠ t.act)) ∨ (a = t.act ∧ n = 0) ∨
      ∃ m u, m < n ∧ stage (step conf s a).c (step conf s a).d = some (m, u) := by
  obtain ⟨quick, sm, next, stopping, lock, commitLock, stopLock, c, k, d⟩ := s
  obtain ⟨h1, h2, h3, h4, h5⟩ := h
  dsimp only at h1 h2 h3 h4 h5 hs
  have hk : k = .idle := by
    have : k.busy = false := by
      revert h5 hs
      generalize k.busy = kb
      cases kb
      · intros; rfl
      · intro h5 hs
        exfalso
        revert h5 hs
        cases c <;> cases d <;> intro hs h5 <;> first | exact absurd h5 (by decide) | cases hs
    cases k with
    | idle => rfl
    | _ => cases this
  subst hk h1 h2 h3 h4
  cases a with
  | wake t => exact absurd rfl (ha t)
  | commit =>
    cases c <;> cases d <;> first | cases hs | skip
    all_goals first
      | exact .inl ⟨rfl, fun _ h => by cases h⟩
      | exact .inr (.inr ⟨_, _, by decide, rfl⟩)
      | exact .inl ⟨rfl, fun h => absurd rfl h⟩
  | handle n t =>
    left
    cases c <;> cases d <;> first | cases hs | skip
    all_goals exact ⟨rfl, fun _ h => by cases h⟩
  | log n =>
    left
    cases c <;> cases d <;> first | cases hs | skip
    all_goals exact ⟨rfl, fun _ h => by cases h⟩
  | srv =>
    left
    cases c <;> cases d <;> first | cases hs | skip
    all_goals exact ⟨rfl, fun _ h => by cases h⟩
  | dtor =>
    cases c <;> cases d <;> first | cases hs | skip
    all_goals first
      | exact .inl ⟨rfl, fun h => absurd rfl h⟩
      | exact .inr (.inr ⟨_, _, by decide, rfl⟩)
      | exact .inl ⟨rfl, fun _ h => by cases h⟩

theorem exec_own (conf : Nat → Bool) {s : St} (h : Own s) (σ : Nat → Act) : ∀ n, Own (exec conf s σ n)
  | 0 => h
  | n + 1 => own_step conf (exec_own conf h σ n) _

theorem exec_shift (conf : Nat → Bool) (s : St) (σ : Nat → Act) (m : Nat) :
    ∀ n, exec conf s σ (m + n) = exec conf (exec conf s σ m) (fun i => σ (m + i)) n
  | 0 => rfl
  | n + 1 => by
    show step conf (exec conf s σ (m + n)) (σ (m + n)) = _
    rw [exec_shift conf s σ m n]
    rfl

/-- The end is reached. -/
theorem ends (conf : Nat → Bool) : ∀ n {s : St} {t : Th} (σ : Nat → Act), Own s → stage s.c s.d = some (n, t) → Fair σ →
    ∃ m, (exec conf s σ m).d = .done := by
  intro n
  induction n using Nat.strongRecOn with
  | _ n ih =>
    intro s t σ h hs hf
    by_cases hn : n = 0
    · subst hn
      refine ⟨0, ?_⟩
      show s.d = .done
      obtain ⟨quick, sm, next, stopping, lock, commitLock, stopLock, c, k, d⟩ := s
      dsimp only at hs ⊢
      cases c <;> cases d <;> first | rfl | cases hs
    · have hturn : ∃ m, σ m = t.act := by
        have ht : t = .commit ∨ t = .dtor := by
          revert hs
          cases s.c <;> cases s.d <;> intro hs <;> cases hs <;> first | exact .inl rfl | exact .inr rfl
        rcases ht with rfl | rfl
        · obtain ⟨m, _, hm⟩ := hf.1 0; exact ⟨m, hm⟩
        · obtain ⟨m, _, hm⟩ := hf.2.1 0; exact ⟨m, hm⟩
      obtain ⟨m, hm⟩ := hturn
      have key : ∀ j, j ≤ m + 1 → (exec conf s σ j = s ∧ ∀ i, i < j → σ i ≠ t.act) ∨
          ∃ i, ∃ n' u, n' < n ∧ stage (exec conf s σ i).c (exec conf s σ i).d = some (n', u) := by
        intro j
        induction j with
        | zero => exact fun _ => .inl ⟨rfl, fun i hi => absurd hi (Nat.not_lt_zero _)⟩
        | succ j ihj =>
          intro hj
          rcases ihj (by omega) with ⟨e, hi⟩ | h
          · rcases stage_step conf h hs (σ j) (hf.2.2 j) with ⟨g1, g2⟩ | ⟨_, g⟩ | ⟨n', u, g1, g2⟩
            · refine .inl ⟨?_, fun i hij => ?_⟩
              · show step conf (exec conf s σ j) (σ j) = s
                rw [e, g1]
              · rcases Nat.lt_succ_iff_lt_or_eq.1 hij with hij | rfl
                · exact hi i hij
                · exact g2 hn
            · exact absurd g hn
            · refine .inr ⟨j + 1, n', u, g1, ?_⟩
              show stage (step conf (exec conf s σ j) (σ j)).c (step conf (exec conf s σ j) (σ j)).d = _
              rw [e, g2]
          · exact .inr h
      rcases key (m + 1) (Nat.le_refl _) with ⟨_, hi⟩ | ⟨i, n', u, g1, g2⟩
      · exact absurd hm (hi m (Nat.lt_succ_self m))
      · have hf' : Fair fun j => σ (i + j) := by
          refine ⟨fun n => ?_, fun n => ?_, fun n t => hf.2.2 (i + n) t⟩
          · obtain ⟨m, h1, h2⟩ := hf.1 (i + n)
            exact ⟨m - i, by omega, by show σ (i + (m - i)) = _; rw [Nat.add_sub_cancel' (by omega)]; exact h2⟩
          · obtain ⟨m, h1, h2⟩ := hf.2.1 (i + n)
            exact ⟨m - i, by omega, by show σ (i + (m - i)) = _; rw [Nat.add_sub_cancel' (by omega)]; exact h2⟩
        obtain ⟨j, hj⟩ := ih n' g1 _ (exec_own conf h σ i) g2 hf'
        exact ⟨i + j, by rw [exec_shift]; exact hj⟩

/-- C59, for the case that the commit thread waits, or is just about to return from the wait, when the destructor notifies it:
the destructor returns in every fair execution without spurious wake-ups.

Missing: all other cases. The destructor hangs then, `destructor_hangs` and the theorems behind it; and it returns too early when
it wakes up without notification, `destructor_returns_early`. -/
theorem destructor_returns_partial (conf : Nat → Bool) (sm next : Nat) (as : List Act) (σ : Nat → Act) (hf : Fair σ)
    (hd : (run conf (St.init sm next) as).d = .tell)
    (hc : (run conf (St.init sm next) as).c = .waiting ∨ (run conf (St.init sm next) as).c = .woken) :
    ∃ m, (exec conf (run conf (St.init sm next) (as ++ [.dtor])) σ m).d = .done := by
  have ho := own_run conf sm next (as ++ [.dtor])
  have hst : stage (run conf (St.init sm next) (as ++ [.dtor])).c (run conf (St.init sm next) (as ++ [.dtor])).d =
      some (10, .dtor) := by
    rw [run_snoc]
    generalize run conf (St.init sm next) as = s at hd hc
    have h1 : step conf s .dtor = { s.tell with d := .toStop } := by
      show stepDtor s = _
      unfold stepDtor
      rw [hd]
    rw [h1]
    have h2 : s.tell.c = .woken := by
      show (if s.c = .waiting then CPc.woken else s.c) = _
      rcases hc with hc | hc
      · rw [if_pos hc]
      · rw [hc]; rfl
    show stage s.tell.c .toStop = _
    rw [h2]
    rfl
  exact ends conf 10 σ ho hst hf

/-- The hypotheses can be met. -/
example : (run (fun _ => false) (St.init 0 1) [.commit, .commit, .commit, .dtor, .dtor, .dtor]).d = .tell ∧
    (run (fun _ => false) (St.init 0 1) [.commit, .commit, .commit, .dtor, .dtor, .dtor]).c = .waiting ∧
    Fair fun n => if n % 2 = 0 then .commit else .dtor := by
  refine ⟨by decide, by decide, fun n => ⟨2 * n, by omega, if_pos (by omega)⟩,
    fun n => ⟨2 * n + 1, by omega, if_neg (by omega)⟩, fun n t h => ?_⟩
  by_cases h2 : n % 2 = 0
  · have h := (if_pos h2).symm.trans h; cases h
  · have h := (if_neg h2).symm.trans h; cases h

/-- Nothing moves any more. -/
theorem frozen (conf : Nat → Bool) {s : St} (h : ∀ a, (∀ t, a ≠ .wake t) → step conf s a = s) :
    ∀ bs, NoWake bs → run conf s bs = s := by
  intro bs
  induction bs with
  | nil => intro _; rfl
  | cons b bs ih =>
    intro hw
    rw [run_cons, h b (fun t e => hw t (by rw [e]; exact List.mem_cons_self ..))]
    exact ih fun t ht => hw t (List.mem_cons_of_mem _ ht)

/-- C59 fails: the commit thread finds nothing to do; then the destructor notifies it; then it waits, and so does the destructor,
whatever happens. -/
theorem destructor_hangs (conf : Nat → Bool) : ∃ as, (run conf (St.init 0 1) as).c = .waiting ∧
    ∀ bs, NoWake bs → (run conf (St.init 0 1) (as ++ bs)).d = .waiting := by
  refine ⟨[.commit, .dtor, .dtor, .dtor, .dtor, .dtor, .dtor, .dtor, .commit, .commit], rfl, fun bs hw => ?_⟩
  rw [run_append, frozen conf (fun a ha => ?_) bs hw]
  · rfl
  · cases a with
    | wake t => exact absurd rfl (ha t)
    | _ => rfl

/-- C59 fails: the commit thread has to apply a configuration; it needs the mutex that the destructor holds. -/
theorem destructor_deadlock (conf : Nat → Bool) (hc : conf 1 = true) : ∃ as, (run conf (St.init 0 1) as).c = .conf ∧
    ∀ bs, NoWake bs → (run conf (St.init 0 1) (as ++ bs)).d = .waiting := by
  have h1 : run conf (St.init 0 1) [.handle 2 1, .srv, .srv, .commit, .commit, .commit] =
      { quick := 1, sm := 1, next := 2, c := .conf } := by
    show stepCommit conf { quick := 1, sm := 1, next := 2, c := .entry } = _
    show (if conf 1 then _ else _) = _
    rw [hc]
    rfl
  refine ⟨[.handle 2 1, .srv, .srv, .commit, .commit, .commit] ++ [.dtor, .dtor, .dtor, .dtor, .dtor, .dtor, .dtor], ?_,
    fun bs hw => ?_⟩
  · rw [run_append, h1]; rfl
  · rw [run_append, run_append, h1, frozen conf (fun a ha => ?_) bs hw]
    · rfl
    · cases a with
      | wake t => exact absurd rfl (ha t)
      | _ => rfl

/-- C59 fails: the commit thread, woken by a new commit index, sees that the server is to be stopped and ends before the
destructor waits for it; the destructor waits for ever. -/
theorem destructor_misses_end (conf : Nat → Bool) : ∃ as, (run conf (St.init 0 1) as).c = .ended ∧
    ∀ bs, NoWake bs → (run conf (St.init 0 1) (as ++ bs)).d = .waiting := by
  have h1 : run conf (St.init 0 1) [.commit, .commit, .commit, .handle 2 1, .srv, .srv] =
      { quick := 1, next := 2, c := .woken } := rfl
  have h2 : run conf { quick := 1, next := 2, c := .woken } [.dtor, .dtor, .commit, .commit, .commit, .commit] =
      { quick := 1, next := 2, stopping := true, lock := some .dtor, c := .ended, d := .toLock } := rfl
  have h3 : run conf { quick := 1, next := 2, stopping := true, lock := some .dtor, c := .ended, d := .toLock }
      [.dtor, .dtor, .dtor, .dtor, .dtor] =
      { quick := 1, next := 2, stopping := true, lock := some .dtor, c := .ended, d := .waiting } := rfl
  refine ⟨[.commit, .commit, .commit, .handle 2 1, .srv, .srv] ++ ([.dtor, .dtor, .commit, .commit, .commit, .commit] ++
    [.dtor, .dtor, .dtor, .dtor, .dtor]), ?_, fun bs hw => ?_⟩
  · rw [run_append, run_append, h1, h2, h3]
  · rw [run_append, run_append, run_append, h1, h2, h3, frozen conf (fun a ha => ?_) bs hw]
    cases a with
    | wake t => exact absurd rfl (ha t)
    | _ => rfl

/-- A spurious wake-up lets the destructor return while the commit thread still uses the server. -/
theorem destructor_returns_early (conf : Nat → Bool) : ∃ as, (run conf (St.init 0 1) as).d = .done ∧
    (run conf (St.init 0 1) as).c ≠ .ended :=
  ⟨[.commit, .dtor, .dtor, .dtor, .dtor, .dtor, .dtor, .dtor, .wake .dtor, .dtor], rfl, (fun h => (by
    have h : CPc.toLock = CPc.ended := h
    cases h))⟩

end Cs.Commit
