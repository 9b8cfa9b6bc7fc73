import Verif.Conc.Service

/-!
# The asio service (C62, C64)

Every exception that leaves a handler costs the service a worker thread; when they are all gone nothing is handled any more. And
`stop` waits for a notification that may have come before it waits.
-/

namespace Cs.Service

theorem run_append (s : St) (as bs : List Act) : run s (as ++ bs) = run (run s as) bs := List.foldl_append

/-- Induction over executions. -/
theorem run_induct {P : St → Prop} {A : Act → Prop} (hs : ∀ s a, A a → P s → P (step s a)) {s : St} (h : P s) :
    ∀ as, (∀ a ∈ as, A a) → P (run s as) := by
  intro as
  induction as generalizing s with
  | nil => intro _; exact h
  | cons a as ih =>
    intro ha
    exact ih (hs s a (ha a (List.mem_cons_self ..)) h) fun b hb => ha b (List.mem_cons_of_mem _ hb)

/-! ## C62 -/

/-- The worker threads that still handle events. -/
def St.alive (s : St) : Nat := s.workers.countP fun w => decide (w ≠ .ended)

theorem count_set {ws : List WPc} {i : Nat} {v w : WPc} (hi : ws[i]? = some w) (hw : w ≠ .ended) :
    (ws.set i v).countP (fun w => decide (w ≠ .ended)) + (if v = .ended then 1 else 0) =
      ws.countP fun w => decide (w ≠ .ended) := by
  induction ws generalizing i with
  | nil => cases hi
  | cons x ws ih =>
    cases i with
    | zero =>
      cases hi
      rw [List.set_cons_zero, List.countP_cons, List.countP_cons]
      by_cases hv : v = .ended
      · simp [hv, hw]
      · simp [hv, hw]
    | succ i =>
      rw [List.set_cons_succ, List.countP_cons, List.countP_cons]
      have := ih hi
      omega

theorem alive_step (s : St) (a : Act) : (step s a).alive + (step s a).thrown = s.alive + s.thrown := by
  cases a with
  | work i =>
    show (stepWork s i).alive + (stepWork s i).thrown = _
    unfold stepWork
    split
    · rename_i hi
      by_cases hq : s.queue = 0
      · rw [if_pos hq]
      · rw [if_neg hq]; exact congrArg (· + s.thrown) (count_set (v := .load) hi (by decide))
    · rename_i hi
      cases s.go
      · exact congrArg (· + s.thrown) (count_set (v := .flush) hi (by decide))
      · exact congrArg (· + s.thrown) (count_set (v := .rearm) hi (by decide))
    · rename_i hi; exact congrArg (· + s.thrown) (count_set (v := .flush) hi (by decide))
    · rename_i hi; exact congrArg (· + s.thrown) (count_set (v := .test) hi (by decide))
    · rename_i hi
      cases s.stopping
      · exact congrArg (· + s.thrown) (count_set (v := .idle) hi (by decide))
      · exact congrArg (· + s.thrown) (count_set (v := .notify) hi (by decide))
    · rename_i hi; exact congrArg (· + s.thrown) (count_set (v := .idle) hi (by decide))
    · rfl
  | stop =>
    show (stepStop s).alive + (stepStop s).thrown = _
    unfold stepStop
    split
    · cases s.go <;> rfl
    all_goals rfl
  | expire =>
    show (if s.armed then _ else _ : St).alive + (if s.armed then _ else _ : St).thrown = _
    cases s.armed <;> rfl
  | handle i t =>
    show (stepHandle s i t).alive + (stepHandle s i t).thrown = _
    unfold stepHandle
    split
    · rename_i hi
      cases t
      · rfl
      · have := count_set (v := .ended) hi (by decide)
        show (s.workers.set i .ended).countP _ + (s.thrown + 1) = s.workers.countP _ + s.thrown
        rw [if_pos rfl] at this
        omega
    · rfl
  | wake => rfl

/-- C62 fails: in every execution, each exception costs one of the worker threads. -/
theorem exceptions_end_workers (n : Nat) (as : List Act) :
    (run (St.init n) as).alive + (run (St.init n) as).thrown = n := by
  refine (run_induct (P := fun s => s.alive + s.thrown = n) (A := fun _ => True)
    (fun s a _ h => (alive_step s a).trans h) ?_ as fun _ _ => trivial)
  show (List.replicate n WPc.idle).countP _ + 0 = n
  rw [List.countP_replicate]
  rfl

/-- C62 for executions in which no handler throws.

Missing: executions with exceptions, where it fails, `exceptions_end_workers`. -/
theorem workers_stay_partial (n : Nat) (as : List Act) (h : ∀ a ∈ as, ∀ i, a ≠ .handle i true) :
    (run (St.init n) as).alive = n := by
  have h0 : (run (St.init n) as).thrown = 0 := by
    refine run_induct (P := fun s => s.thrown = 0) (A := fun a => ∀ i, a ≠ .handle i true) (fun s a ha hs => ?_) rfl as h
    cases a with
    | work i =>
      show (stepWork s i).thrown = 0
      unfold stepWork
      split
      · by_cases hq : s.queue = 0
        · rw [if_pos hq]; exact hs
        · rw [if_neg hq]; exact hs
      all_goals exact hs
    | stop =>
      show (stepStop s).thrown = 0
      unfold stepStop
      split
      · cases s.go <;> exact hs
      all_goals exact hs
    | expire =>
      show (if s.armed then _ else _ : St).thrown = 0
      cases s.armed <;> exact hs
    | handle i t =>
      cases t with
      | true => exact absurd rfl (ha i)
      | false =>
        show (stepHandle s i false).thrown = 0
        unfold stepHandle
        split
        · exact hs
        · exact hs
    | wake => exact hs
  have := exceptions_end_workers n as
  omega

/-- All worker threads have ended. -/
def St.dead (s : St) : Prop := ∀ w ∈ s.workers, w = .ended

theorem dead_get {s : St} (h : s.dead) (i : Nat) : s.workers[i]? = none ∨ s.workers[i]? = some .ended := by
  cases e : s.workers[i]? with
  | none => exact .inl rfl
  | some w => exact .inr (by rw [h w (List.mem_of_getElem? e)])

theorem dead_work {s : St} (h : s.dead) (i : Nat) : stepWork s i = s := by
  unfold stepWork
  rcases dead_get h i with e | e <;> rw [e]

theorem dead_handle {s : St} (h : s.dead) (i : Nat) (t : Bool) : stepHandle s i t = s := by
  unfold stepHandle
  rcases dead_get h i with e | e <;> rw [e]

theorem dead_of_count {ws : List WPc} (h : ws.countP (fun w => decide (w ≠ .ended)) = 0) : ∀ w ∈ ws, w = .ended := by
  intro w hw
  have := List.countP_eq_zero.1 h w hw
  simpa using this

/-- After as many exceptions as there are worker threads, nothing is handled any more, whatever happens. -/
theorem service_dies (n : Nat) (as bs : List Act) (h : (run (St.init n) as).thrown = n) :
    (run (St.init n) (as ++ bs)).handled = (run (St.init n) as).handled := by
  have hd : (run (St.init n) as).dead := by
    have := exceptions_end_workers n as
    exact dead_of_count (show (run (St.init n) as).alive = 0 by omega)
  rw [run_append]
  refine (run_induct (P := fun s => s.dead ∧ s.handled = (run (St.init n) as).handled) (A := fun _ => True)
    (fun s a _ hs => ?_) ⟨hd, rfl⟩ bs fun _ _ => trivial).2
  cases a with
  | work i => show (stepWork s i).dead ∧ _ = _; rw [show step s (.work i) = stepWork s i from rfl, dead_work hs.1]; exact hs
  | stop =>
    show (stepStop s).dead ∧ (stepStop s).handled = _
    unfold stepStop
    split
    · cases s.go <;> exact hs
    all_goals exact hs
  | expire =>
    show (if s.armed then _ else _ : St).dead ∧ (if s.armed then _ else _ : St).handled = _
    cases s.armed <;> exact hs
  | handle i t => rw [show step s (.handle i t) = stepHandle s i t from rfl, dead_handle hs.1]; exact hs
  | wake => exact hs

/-- Such executions exist: one exception on each thread. -/
example : (run (St.init 2) [.handle 0 true, .handle 1 false, .handle 1 true]).thrown = 2 ∧
    (run (St.init 2) [.handle 0 true, .handle 1 false, .handle 1 true]).handled = 3 := by decide

/-! ## C64 -/

/-- No thread wakes up without notification. -/
def NoWake (as : List Act) : Prop := .wake ∉ as

/-- Nobody is left who would notify the caller of `stop`. -/
structure Hung (s : St) : Prop where
  stop : s.stop = .waiting
  armed : s.armed = false
  queue : s.queue = 0
  workers : ∀ w ∈ s.workers, w = .idle ∨ w = .ended

theorem hung_get {s : St} (h : Hung s) (i : Nat) :
    s.workers[i]? = none ∨ s.workers[i]? = some .idle ∨ s.workers[i]? = some .ended := by
  cases e : s.workers[i]? with
  | none => exact .inl rfl
  | some w => rcases h.workers w (List.mem_of_getElem? e) with rfl | rfl <;> simp

theorem hung_step {s : St} (h : Hung s) (a : Act) (ha : a ≠ .wake) : Hung (step s a) := by
  cases a with
  | work i =>
    show Hung (stepWork s i)
    unfold stepWork
    rcases hung_get h i with e | e | e <;> rw [e]
    · exact h
    · show Hung (if s.queue = 0 then _ else _)
      rw [if_pos h.queue]; exact h
    · exact h
  | stop =>
    show Hung (stepStop s)
    unfold stepStop
    rw [h.stop]; exact h
  | expire =>
    show Hung (if s.armed then _ else _)
    rw [h.armed]; exact h
  | handle i t =>
    show Hung (stepHandle s i t)
    unfold stepHandle
    rcases hung_get h i with e | e | e <;> rw [e]
    · exact h
    · cases t
      · exact ⟨h.stop, h.armed, h.queue, h.workers⟩
      · refine ⟨h.stop, h.armed, h.queue, fun w hw => ?_⟩
        rcases List.mem_or_eq_of_mem_set hw with hw | rfl
        · exact h.workers w hw
        · exact .inr rfl
    · exact h
  | wake => exact absurd rfl ha

theorem hung_run {s : St} (h : Hung s) (bs : List Act) (hb : NoWake bs) : (run s bs).stop = .waiting :=
  (run_induct (P := Hung) (A := fun a => a ≠ .wake) (fun _ a ha h => hung_step h a ha) h bs
    (fun _ ha e => hb (e ▸ ha))).stop

/-- C64 fails: a worker thread flushes the loggers and notifies before the caller of `stop` waits; `stop` never returns. -/
theorem stop_hangs (n : Nat) : ∃ as, (run (St.init (n + 1)) as).alive = n + 1 ∧
    ∀ bs, NoWake bs → (run (St.init (n + 1)) (as ++ bs)).stop = .waiting := by
  have e : run (St.init (n + 1)) [.stop, .stop, .stop, .work 0, .work 0, .work 0, .work 0, .work 0, .stop] =
      { go := false, stopping := true, armed := false, workers := .idle :: List.replicate n .idle, stop := .waiting } := rfl
  refine ⟨[.stop, .stop, .stop, .work 0, .work 0, .work 0, .work 0, .work 0, .stop], ?_, fun bs hb => ?_⟩
  · rw [e]
    show (List.replicate (n + 1) WPc.idle).countP _ = n + 1
    rw [List.countP_replicate]
    rfl
  · rw [run_append, e]
    refine hung_run ⟨rfl, rfl, rfl, fun w hw => .inl ?_⟩ bs hb
    exact List.eq_of_mem_replicate (n := n + 1) hw

/-- C64 fails: when all worker threads have ended by exceptions, a call of `stop` that finds the service running never
returns. -/
theorem stop_hangs_without_workers (n : Nat) (as bs : List Act) (h : (run (St.init n) as).thrown = n)
    (hs : (run (St.init n) as).stop = .start) (hb : NoWake bs) : (run (St.init n) (as ++ bs)).stop ≠ .done := by
  have hd : (run (St.init n) as).dead := by
    have := exceptions_end_workers n as
    exact dead_of_count (show (run (St.init n) as).alive = 0 by omega)
  have hg : (run (St.init n) as).go = true := by
    refine run_induct (P := fun s => s.stop = .start → s.go = true) (A := fun _ => True) (fun s a _ ih => ?_) (fun _ => rfl)
      as (fun _ _ => trivial) hs
    cases a with
    | work i =>
      show (stepWork s i).stop = .start → (stepWork s i).go = true
      unfold stepWork
      split
      · by_cases hq : s.queue = 0
        · rw [if_pos hq]; exact ih
        · rw [if_neg hq]; exact ih
      · exact ih
      · exact ih
      · exact ih
      · exact ih
      · intro hs
        have hs : s.stop.notified = .start := hs
        revert ih hs
        show _ → _ → s.go = true
        cases s.stop <;> intro ih hs <;> first | exact ih rfl | cases hs
      · exact ih
    | stop =>
      show (stepStop s).stop = .start → (stepStop s).go = true
      unfold stepStop
      split
      · cases s.go <;> (intro h; cases h)
      all_goals first | (intro h; cases h) | (rename_i hw; intro h; rw [hw] at h; cases h)
    | expire =>
      show (if s.armed then _ else _ : St).stop = .start → (if s.armed then _ else _ : St).go = true
      cases s.armed <;> exact ih
    | handle i t =>
      show (stepHandle s i t).stop = .start → (stepHandle s i t).go = true
      unfold stepHandle
      split
      · cases t <;> exact ih
      · exact ih
    | wake =>
      intro hs
      have hs : s.stop.notified = .start := hs
      revert ih hs
      show _ → _ → s.go = true
      cases s.stop <;> intro ih hs <;> first | exact ih rfl | cases hs
  rw [run_append]
  have key : (run (run (St.init n) as) bs).stop ≠ .done ∧ (run (run (St.init n) as) bs).stop ≠ .woken := by
    refine (run_induct (P := fun s => s.dead ∧ (s.stop = .start → s.go = true) ∧ s.stop ≠ .done ∧ s.stop ≠ .woken)
      (A := fun a => a ≠ .wake) (fun s a ha ih => ?_) ⟨hd, fun _ => hg, by rw [hs]; decide, by rw [hs]; decide⟩ bs
      (fun _ ha e => hb (e ▸ ha))).2.2
    obtain ⟨h1, h2, h3, h4⟩ := ih
    cases a with
    | work i => rw [show step s (.work i) = stepWork s i from rfl, dead_work h1]; exact ⟨h1, h2, h3, h4⟩
    | stop =>
      show (stepStop s).dead ∧ ((stepStop s).stop = .start → (stepStop s).go = true) ∧ (stepStop s).stop ≠ .done ∧
        (stepStop s).stop ≠ .woken
      unfold stepStop
      split
      · rename_i hst
        rw [h2 hst]
        exact ⟨h1, (by intro h; cases h), (by intro h; cases h), (by intro h; cases h)⟩
      · exact ⟨h1, (by intro h; cases h), (by intro h; cases h), (by intro h; cases h)⟩
      · exact ⟨h1, (by intro h; cases h), (by intro h; cases h), (by intro h; cases h)⟩
      · exact ⟨h1, (by intro h; cases h), (by intro h; cases h), (by intro h; cases h)⟩
      · exact ⟨h1, h2, h3, h4⟩
      · rename_i hst; exact absurd hst h4
      · exact ⟨h1, h2, h3, h4⟩
    | expire =>
      show (if s.armed then _ else _ : St).dead ∧ ((if s.armed then _ else _ : St).stop = .start →
        (if s.armed then _ else _ : St).go = true) ∧ (if s.armed then _ else _ : St).stop ≠ .done ∧
        (if s.armed then _ else _ : St).stop ≠ .woken
      cases s.armed <;> exact ⟨h1, h2, h3, h4⟩
    | handle i t => rw [show step s (.handle i t) = stepHandle s i t from rfl, dead_handle h1]; exact ⟨h1, h2, h3, h4⟩
    | wake => exact absurd rfl ha
  exact key.1

/-- The state after the first `n` actions of an infinite execution. -/
def exec (s : St) (σ : Nat → Act) : Nat → St
  | 0 => s
  | n + 1 => step (exec s σ n) (σ n)

/-- Every one of the `k` worker threads, and the caller of `stop`, gets its turn again and again. -/
def Fair (k : Nat) (σ : Nat → Act) : Prop :=
  (∀ n, ∃ m, n ≤ m ∧ σ m = .stop) ∧ ∀ i, i < k → ∀ n, ∃ m, n ≤ m ∧ σ m = .work i

theorem length_step (s : St) (a : Act) : (step s a).workers.length = s.workers.length := by
  cases a with
  | work i =>
    show (stepWork s i).workers.length = _
    unfold stepWork
    split
    · by_cases hq : s.queue = 0
      · rw [if_pos hq]
      · rw [if_neg hq]; exact List.length_set
    all_goals first | exact List.length_set | rfl
  | stop =>
    show (stepStop s).workers.length = _
    unfold stepStop
    split
    · cases s.go <;> rfl
    all_goals rfl
  | expire =>
    show (if s.armed then _ else _ : St).workers.length = _
    cases s.armed <;> rfl
  | handle i t =>
    show (stepHandle s i t).workers.length = _
    unfold stepHandle
    split
    · cases t
      · rfl
      · exact List.length_set
    · rfl
  | wake => rfl

theorem length_run (n : Nat) (as : List Act) : (run (St.init n) as).workers.length = n :=
  run_induct (P := fun s => s.workers.length = n) (A := fun _ => True) (fun s a _ h => (length_step s a).trans h)
    List.length_replicate as fun _ _ => trivial

theorem length_exec (s : St) (σ : Nat → Act) : ∀ n, (exec s σ n).workers.length = s.workers.length
  | 0 => rfl
  | n + 1 => (length_step _ _).trans (length_exec s σ n)

theorem lt_of_get {ws : List WPc} {i : Nat} {w : WPc} (h : ws[i]? = some w) : i < ws.length :=
  (List.getElem?_eq_some_iff.1 h).1

theorem exec_shift (s : St) (σ : Nat → Act) (m : Nat) :
    ∀ n, exec s σ (m + n) = exec (exec s σ m) (fun i => σ (m + i)) n
  | 0 => rfl
  | n + 1 => by
    show step (exec s σ (m + n)) (σ (m + n)) = _
    rw [exec_shift s σ m n]
    rfl

theorem fair_shift {k : Nat} {σ : Nat → Act} (h : Fair k σ) (i : Nat) : Fair k fun j => σ (i + j) := by
  refine ⟨fun n => ?_, fun k hk n => ?_⟩
  · obtain ⟨m, h1, h2⟩ := h.1 (i + n)
    exact ⟨m - i, by omega, by show σ (i + (m - i)) = _; rw [Nat.add_sub_cancel' (by omega)]; exact h2⟩
  · obtain ⟨m, h1, h2⟩ := h.2 k hk (i + n)
    exact ⟨m - i, by omega, by show σ (i + (m - i)) = _; rw [Nat.add_sub_cancel' (by omega)]; exact h2⟩

/-- Steps of a worker thread until it notifies. -/
def WPc.left : WPc → Nat
  | .load => 5
  | .rearm => 4
  | .flush => 3
  | .test => 2
  | .notify => 1
  | _ => 0

/-- The service is being stopped, and the caller has not got its notification. -/
def St.waits (s : St) : Prop := s.stopping = true ∧ s.stop = .waiting
/-- `stop` has got its notification. -/
def St.told (s : St) : Prop := s.stop = .woken ∨ s.stop = .done

/-- Another thread does not move this one. -/
theorem set_other {ws : List WPc} {i j : Nat} {v : WPc} (h : j ≠ i) : (ws.set j v)[i]? = ws[i]? := by
  rw [List.getElem?_set, if_neg h]

theorem told_step {s : St} (h : s.told) (a : Act) : (step s a).told := by
  have hn : s.stop.notified = s.stop := by
    rcases h with e | e <;> rw [e] <;> rfl
  cases a with
  | work i =>
    show (stepWork s i).told
    unfold stepWork
    split
    · by_cases hq : s.queue = 0
      · rw [if_pos hq]; exact h
      · rw [if_neg hq]; exact h
    · exact h
    · exact h
    · exact h
    · exact h
    · show s.stop.notified = _ ∨ s.stop.notified = _
      rw [hn]; exact h
    · exact h
  | stop =>
    show (stepStop s).told
    unfold stepStop
    rcases h with e | e <;> rw [e]
    · exact .inr rfl
    · exact .inr e
  | expire =>
    show (if s.armed then _ else _ : St).told
    cases s.armed <;> exact h
  | handle i t =>
    show (stepHandle s i t).told
    unfold stepHandle
    split
    · cases t <;> exact h
    · exact h
  | wake =>
    show s.stop.notified = _ ∨ s.stop.notified = _
    rw [hn]; exact h

/-- A worker thread on its way to the notification goes on, and nobody else stops it. -/
theorem busy_step {s : St} (h : s.waits) {i : Nat} {w : WPc} (hi : s.workers[i]? = some w) (hw : w.left ≠ 0) (a : Act) :
    (step s a).told ∨ ((step s a).waits ∧ ∃ v, (step s a).workers[i]? = some v ∧ v.left ≠ 0 ∧
      v.left ≤ w.left ∧ (a = .work i → v.left < w.left)) := by
  have hl : i < s.workers.length := (List.getElem?_eq_some_iff.1 hi).1
  have hset : ∀ v, (s.workers.set i v)[i]? = some v := fun v => by rw [List.getElem?_set, if_pos rfl, if_pos hl]
  cases a with
  | work j =>
    by_cases hj : j = i
    · subst hj
      show (stepWork s j).told ∨ ((stepWork s j).waits ∧ ∃ v, (stepWork s j).workers[j]? = some v ∧ _)
      unfold stepWork
      rw [hi]
      cases w with
      | idle => exact absurd rfl hw
      | load => cases s.go <;> exact .inr ⟨h, _, hset _, by decide, by decide, fun _ => by decide⟩
      | rearm => exact .inr ⟨h, _, hset _, by decide, by decide, fun _ => by decide⟩
      | flush => exact .inr ⟨h, _, hset _, by decide, by decide, fun _ => by decide⟩
      | test =>
        refine .inr ⟨h, .notify, ?_, by decide, by decide, fun _ => by decide⟩
        show (s.workers.set j (if s.stopping then .notify else .idle))[j]? = _
        rw [h.1]; exact hset _
      | notify =>
        left; left
        show s.stop.notified = _
        rw [h.2]; rfl
      | ended => exact absurd rfl hw
    · have hne : ∀ u, s.waits → ({ s with workers := s.workers.set j u } : St).workers[i]? = some w :=
        fun u _ => (set_other hj).trans hi
      have hnot : Act.work j = .work i → False := by intro e; cases e; exact hj rfl
      show (stepWork s j).told ∨ ((stepWork s j).waits ∧ ∃ v, (stepWork s j).workers[i]? = some v ∧ _)
      unfold stepWork
      split
      · by_cases hq : s.queue = 0
        · rw [if_pos hq]; exact .inr ⟨h, w, hi, hw, Nat.le_refl _, fun e => (hnot e).elim⟩
        · rw [if_neg hq]; exact .inr ⟨h, w, hne _ h, hw, Nat.le_refl _, fun e => (hnot e).elim⟩
      · exact .inr ⟨h, w, hne _ h, hw, Nat.le_refl _, fun e => (hnot e).elim⟩
      · exact .inr ⟨h, w, hne _ h, hw, Nat.le_refl _, fun e => (hnot e).elim⟩
      · exact .inr ⟨h, w, hne _ h, hw, Nat.le_refl _, fun e => (hnot e).elim⟩
      · exact .inr ⟨h, w, hne _ h, hw, Nat.le_refl _, fun e => (hnot e).elim⟩
      · left; left
        show s.stop.notified = _
        rw [h.2]; rfl
      · exact .inr ⟨h, w, hi, hw, Nat.le_refl _, fun e => (hnot e).elim⟩
  | stop =>
    right
    have e : step s .stop = s := by
      show stepStop s = s
      unfold stepStop
      rw [h.2]
    rw [e]
    exact ⟨h, w, hi, hw, Nat.le_refl _, fun e => by cases e⟩
  | expire =>
    right
    show (if s.armed then _ else _ : St).waits ∧ ∃ v, (if s.armed then _ else _ : St).workers[i]? = some v ∧ _
    cases s.armed <;> exact ⟨h, w, hi, hw, Nat.le_refl _, fun e => by cases e⟩
  | handle j t =>
    right
    show (stepHandle s j t).waits ∧ ∃ v, (stepHandle s j t).workers[i]? = some v ∧ _
    unfold stepHandle
    split
    · rename_i hj
      have hji : j ≠ i := by
        rintro rfl
        rw [hi] at hj; cases hj
        exact hw rfl
      cases t
      · exact ⟨h, w, hi, hw, Nat.le_refl _, fun e => by cases e⟩
      · exact ⟨h, w, (set_other hji).trans hi, hw, Nat.le_refl _, fun e => by cases e⟩
    · exact ⟨h, w, hi, hw, Nat.le_refl _, fun e => by cases e⟩
  | wake =>
    left; left
    show s.stop.notified = _
    rw [h.2]; rfl

theorem told_exec {s : St} (h : s.told) (σ : Nat → Act) : ∀ n, (exec s σ n).told
  | 0 => h
  | n + 1 => told_step (told_exec h σ n) _

/-- Once notified, `stop` returns. -/
theorem told_ends {s : St} (h : s.told) {k : Nat} {σ : Nat → Act} (hf : Fair k σ) : ∃ m, (exec s σ m).stop = .done := by
  obtain ⟨m, _, hm⟩ := hf.1 0
  refine ⟨m + 1, ?_⟩
  show (step (exec s σ m) (σ m)).stop = _
  rw [hm]
  show (stepStop (exec s σ m)).stop = _
  have := told_exec h σ m
  generalize exec s σ m = t at this
  unfold stepStop
  rcases this with e | e <;> rw [e]
  exact e

/-- A worker thread on its way to the notification gets there. -/
theorem busy_tells : ∀ k {s : St} (σ : Nat → Act) {i : Nat} {w : WPc}, Fair s.workers.length σ → s.waits → s.workers[i]? = some w → w.left ≠ 0 →
    w.left ≤ k → ∃ m, (exec s σ m).told := by
  intro k
  induction k with
  | zero => intro s σ i w _ _ _ hw hk; exact absurd (Nat.le_zero.1 hk) hw
  | succ k ih =>
    intro s σ i w hf h hi hw hk
    obtain ⟨m, _, hm⟩ := hf.2 i (lt_of_get hi) 0
    have key : ∀ j, (∃ n, (exec s σ n).told) ∨ ((exec s σ j).waits ∧ ∃ v, (exec s σ j).workers[i]? = some v ∧ v.left ≠ 0 ∧
        v.left ≤ w.left) := by
      intro j
      induction j with
      | zero => exact .inr ⟨h, w, hi, hw, Nat.le_refl _⟩
      | succ j ihj =>
        rcases ihj with h | ⟨h1, v, h2, h3, h4⟩
        · exact .inl h
        · rcases busy_step h1 h2 h3 (σ j) with g | ⟨g1, u, g2, g3, g4, _⟩
          · exact .inl ⟨j + 1, g⟩
          · exact .inr ⟨g1, u, g2, g3, Nat.le_trans g4 h4⟩
    rcases key m with h | ⟨h1, v, h2, h3, h4⟩
    · exact h
    · rcases busy_step h1 h2 h3 (σ m) with g | ⟨g1, u, g2, g3, _, g5⟩
      · exact ⟨m + 1, g⟩
      · have hlt := g5 hm
        obtain ⟨n, hn⟩ := ih (s := exec s σ (m + 1)) (fun j => σ (m + 1 + j))
          (by rw [length_exec]; exact fair_shift hf (m + 1)) g1 g2 g3 (by omega)
        exact ⟨m + 1 + n, by rw [exec_shift]; exact hn⟩

/-- A queued completion is taken as long as no handler throws. -/
theorem queue_step {s : St} (h : s.waits) {i : Nat} (hi : s.workers[i]? = some .idle) (hq : s.queue ≠ 0) (a : Act)
    (ha : ∀ j, a ≠ .handle j true) :
    (step s a).told ∨ ((step s a).waits ∧ ((∃ (j : Nat) (v : WPc), (step s a).workers[j]? = some v ∧ v.left ≠ 0) ∨
      ((step s a).workers[i]? = some .idle ∧ (step s a).queue ≠ 0 ∧ a ≠ .work i))) := by
  have hset : ∀ {j w} v, s.workers[j]? = some w → (s.workers.set j v)[j]? = some v := fun {j w} v hj => by
    rw [List.getElem?_set, if_pos rfl, if_pos (List.getElem?_eq_some_iff.1 hj).1]
  cases a with
  | work j =>
    show (stepWork s j).told ∨ ((stepWork s j).waits ∧ ((∃ (k : Nat) (v : WPc), (stepWork s j).workers[k]? = some v ∧ v.left ≠ 0) ∨
      ((stepWork s j).workers[i]? = some .idle ∧ (stepWork s j).queue ≠ 0 ∧ _)))
    have hne : ∀ {w}, s.workers[j]? = some w → w ≠ .idle → j ≠ i := by
      rintro w hw h0 rfl
      rw [hi] at hw; cases hw
      exact h0 rfl
    have hne' : j ≠ i → Act.work j ≠ .work i := by
      intro h e; cases e; exact h rfl
    unfold stepWork
    split
    · rename_i hj
      rw [if_neg hq]
      exact .inr ⟨h, .inl ⟨j, _, hset _ hj, by decide⟩⟩
    · rename_i hj
      cases s.go
      · exact .inr ⟨h, .inl ⟨j, _, hset _ hj, by decide⟩⟩
      · exact .inr ⟨h, .inl ⟨j, _, hset _ hj, by decide⟩⟩
    · rename_i hj
      exact .inr ⟨h, .inl ⟨j, _, hset _ hj, by decide⟩⟩
    · rename_i hj
      exact .inr ⟨h, .inl ⟨j, _, hset _ hj, by decide⟩⟩
    · rename_i hj
      refine .inr ⟨h, .inl ⟨j, .notify, ?_, by decide⟩⟩
      show (s.workers.set j (if s.stopping then .notify else .idle))[j]? = _
      rw [h.1]; exact hset _ hj
    · left; left
      show s.stop.notified = _
      rw [h.2]; rfl
    · rename_i hj1 hj2 hj3 hj4 hj5 hj6
      refine .inr ⟨h, .inr ⟨hi, hq, hne' ?_⟩⟩
      rintro rfl
      exact hj1 hi
  | stop =>
    right
    have e : step s .stop = s := by
      show stepStop s = s
      unfold stepStop
      rw [h.2]
    rw [e]
    exact ⟨h, .inr ⟨hi, hq, fun e => by cases e⟩⟩
  | expire =>
    right
    show (if s.armed then _ else _ : St).waits ∧ (_ ∨ ((if s.armed then _ else _ : St).workers[i]? = some .idle ∧
      (if s.armed then _ else _ : St).queue ≠ 0 ∧ _))
    cases s.armed
    · exact ⟨h, .inr ⟨hi, hq, fun e => by cases e⟩⟩
    · exact ⟨h, .inr ⟨hi, Nat.succ_ne_zero _, fun e => by cases e⟩⟩
  | handle j t =>
    cases t with
    | true => exact absurd rfl (ha j)
    | false =>
      right
      show (stepHandle s j false).waits ∧ (_ ∨ ((stepHandle s j false).workers[i]? = some .idle ∧
        (stepHandle s j false).queue ≠ 0 ∧ _))
      unfold stepHandle
      split
      · exact ⟨h, .inr ⟨hi, hq, fun e => by cases e⟩⟩
      · exact ⟨h, .inr ⟨hi, hq, fun e => by cases e⟩⟩
  | wake =>
    left; left
    show s.stop.notified = _
    rw [h.2]; rfl

theorem queue_tells {s : St} {σ : Nat → Act} (hf : Fair s.workers.length σ) (hx : ∀ n j, σ n ≠ .handle j true) (h : s.waits) {i : Nat}
    (hi : s.workers[i]? = some .idle) (hq : s.queue ≠ 0) : ∃ m, (exec s σ m).told := by
  obtain ⟨m, _, hm⟩ := hf.2 i (lt_of_get hi) 0
  have key : ∀ j, (∃ n, (exec s σ n).told) ∨ ((exec s σ j).waits ∧ (exec s σ j).workers[i]? = some .idle ∧
      (exec s σ j).queue ≠ 0 ∧ ∀ k, k < j → σ k ≠ .work i) := by
    intro j
    induction j with
    | zero => exact .inr ⟨h, hi, hq, fun k hk => absurd hk (Nat.not_lt_zero _)⟩
    | succ j ihj =>
      rcases ihj with h | ⟨h1, h2, h3, h4⟩
      · exact .inl h
      · rcases queue_step h1 h2 h3 (σ j) (hx j) with g | ⟨g1, ⟨k, v, g2, g3⟩ | ⟨g2, g3, g4⟩⟩
        · exact .inl ⟨j + 1, g⟩
        · obtain ⟨n, hn⟩ := busy_tells v.left (s := exec s σ (j + 1)) (fun k => σ (j + 1 + k))
            (by rw [length_exec]; exact fair_shift hf (j + 1)) g1 g2 g3
            (Nat.le_refl _)
          exact .inl ⟨j + 1 + n, by rw [exec_shift]; exact hn⟩
        · refine .inr ⟨g1, g2, g3, fun k hk => ?_⟩
          rcases Nat.lt_succ_iff_lt_or_eq.1 hk with hk | rfl
          · exact h4 k hk
          · exact g4
  rcases key (m + 1) with h | ⟨_, _, _, h4⟩
  · exact h
  · exact absurd hm (h4 m (Nat.lt_succ_self m))

/-- The flag is set before the caller of `stop` waits. -/
def Flagged (s : St) : Prop := s.stop = .start ∨ s.stop = .set ∨ s.stop = .done ∨ s.stopping = true

theorem flagged_notified {s : St} (h : Flagged s) {p : SPc} (hp : p = s.stop.notified) :
    p = .start ∨ p = .set ∨ p = .done ∨ s.stopping = true := by
  subst hp
  rcases h with e | e | e | e
  · rw [e]; exact .inl rfl
  · rw [e]; exact .inr (.inl rfl)
  · rw [e]; exact .inr (.inr (.inl rfl))
  · exact .inr (.inr (.inr e))

theorem flagged_run (n : Nat) (as : List Act) : Flagged (run (St.init n) as) := by
  refine run_induct (P := Flagged) (A := fun _ => True) (fun s a _ ih => ?_) (.inl rfl) as (fun _ _ => trivial)
  cases a with
  | work i =>
    show Flagged (stepWork s i)
    unfold stepWork
    split
    · by_cases hq : s.queue = 0
      · rw [if_pos hq]; exact ih
      · rw [if_neg hq]; exact ih
    · exact ih
    · exact ih
    · exact ih
    · exact ih
    · exact flagged_notified ih rfl
    · exact ih
  | stop =>
    show Flagged (stepStop s)
    unfold stepStop
    split
    · cases s.go
      · exact .inr (.inr (.inl rfl))
      · exact .inr (.inl rfl)
    · exact .inr (.inr (.inr rfl))
    all_goals
      rename_i e
      rcases ih with h | h | h | h
      · rw [e] at h; cases h
      · rw [e] at h; cases h
      · first | exact .inr (.inr (.inl h)) | (rw [e] at h; cases h)
      · exact .inr (.inr (.inr h))
  | expire =>
    show Flagged (if s.armed then _ else _ : St)
    cases s.armed <;> exact ih
  | handle i t =>
    show Flagged (stepHandle s i t)
    unfold stepHandle
    split
    · cases t <;> exact ih
    · exact ih
  | wake => exact flagged_notified ih rfl

/-- C64, for the case that the flush of the loggers is still to come when the caller of `stop` starts to wait: a worker thread is
between taking the completion of the timer and the notification; or a completion is queued, a worker thread is free, and no
handler throws later. In every fair execution `stop` returns.

Missing: the other cases. If the notification has been given before, or there is no worker thread any more, `stop` hangs:
`stop_hangs`, `stop_hangs_without_workers`. -/
theorem stop_returns_partial (n : Nat) (as : List Act) (σ : Nat → Act) (hf : Fair n σ) (i : Nat) (w : WPc)
    (hs : (run (St.init n) as).stop = .wait) (hi : (run (St.init n) as).workers[i]? = some w) (he : w ≠ .ended)
    (hw : w = .idle → (run (St.init n) as).queue ≠ 0 ∧ ∀ n j, σ n ≠ .handle j true) :
    ∃ m, (exec (run (St.init n) (as ++ [.stop])) σ m).stop = .done := by
  have hst : (run (St.init n) as).stopping = true := by
    rcases flagged_run n as with e | e | e | e
    · rw [hs] at e; cases e
    · rw [hs] at e; cases e
    · rw [hs] at e; cases e
    · exact e
  rw [run_append]
  rw [← length_run n as] at hf
  generalize run (St.init n) as = s at hs hi hw hst hf
  have e : run s [.stop] = { s with stop := .waiting } := by
    show stepStop s = _
    unfold stepStop
    rw [hs]
  rw [e]
  have hwt : ({ s with stop := .waiting } : St).waits := ⟨hst, rfl⟩
  have : ∃ m, (exec { s with stop := .waiting } σ m).told := by
    by_cases h0 : w = .idle
    · subst h0
      exact queue_tells hf (hw rfl).2 hwt hi (hw rfl).1
    · exact busy_tells w.left σ hf hwt hi (by revert he h0; cases w <;> decide) (Nat.le_refl _)
  obtain ⟨m, hm⟩ := this
  obtain ⟨k, hk⟩ := told_ends hm (fair_shift hf m)
  exact ⟨m + k, by rw [exec_shift]; exact hk⟩

/-- Two threads in turn. -/
def exampleTurns (n : Nat) : Act := if n % 2 = 0 then .stop else .work 0

/-- The hypotheses can be met: the timer has been cancelled, and the only worker thread has not yet taken the completion. -/
example : (run (St.init 1) [.stop, .stop, .stop]).stop = .wait ∧ (run (St.init 1) [.stop, .stop, .stop]).workers[0]? = some .idle ∧
    (run (St.init 1) [.stop, .stop, .stop]).queue ≠ 0 ∧ (∀ n j, exampleTurns n ≠ .handle j true) ∧ Fair 1 exampleTurns := by
  refine ⟨by decide, by decide, by decide, fun n j h => ?_, fun n => ⟨2 * n, by omega, if_pos (by omega)⟩,
    fun i hi n => ⟨2 * n + 1, by omega, ?_⟩⟩
  · by_cases h2 : n % 2 = 0
    · have h := (if_pos h2).symm.trans h; cases h
    · have h := (if_neg h2).symm.trans h; cases h
  · have : i = 0 := by omega
    subst this
    exact if_neg (by omega)

end Cs.Service
