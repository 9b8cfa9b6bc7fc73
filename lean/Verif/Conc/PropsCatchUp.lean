import Verif.Conc.CatchUp
import Verif.Conc.PropsCommit

/-!
# The event `logs_catch_up` (C116)
-/

namespace Cs.Commit

/-! ## Specification -/

/-- The report is true: all entries the server knows to be committed are applied. -/
def Report.True (r : Report) : Prop := r.quick ≤ r.sm

/-- The server knows that an entry is committed only when it has the entry. -/
def Report.Complete (r : Report) : Prop := r.quick < r.next

/-- No handler acts while the commit thread is between its test and the call of the listener. -/
def Quiet (conf : Nat → Bool) (x : Told) (as : List Act) : Prop :=
  ∀ pre a post, as = pre ++ a :: post → (trun conf x pre).st.c = .toLock → (trun conf x pre).told = false →
    a ≠ .srv ∧ (∀ n t, a ≠ .handle n t) ∧ ∀ n, a ≠ .log n

/-! ## Executions -/

theorem trun_append (conf : Nat → Bool) (x : Told) (as bs : List Act) : trun conf x (as ++ bs) = trun conf (trun conf x as) bs :=
  List.foldl_append ..
theorem trun_snoc (conf : Nat → Bool) (x : Told) (as : List Act) (a : Act) :
    trun conf x (as ++ [a]) = tstep conf (trun conf x as) a := trun_append ..

theorem list_induct {P : List Act → Prop} (h0 : P []) (h1 : ∀ as a, P as → P (as ++ [a])) : ∀ as, P as := by
  have : ∀ n as, as.length = n → P as := by
    intro n
    induction n with
    | zero => intro as h; cases as with
      | nil => exact h0
      | cons _ _ => cases h
    | succ n ih =>
      intro as h
      rcases as.eq_nil_or_concat with rfl | ⟨l, a, rfl⟩
      · cases h
      · rw [List.concat_eq_append] at h ⊢
        exact h1 l a (ih l (by simpa using h))
  exact fun as => this _ as rfl

/-- The call of the listener, or a step of the thread. -/
theorem stepTold_call (conf : Nat → Bool) {x : Told} (h1 : x.st.c = .toLock) (h2 : x.told = false) :
    stepTold conf x = { x with told := true, calls := x.calls ++ [⟨x.st.sm, x.st.quick, x.st.next⟩] } := if_pos ⟨h1, h2⟩

theorem stepTold_go (conf : Nat → Bool) {x : Told} (h : ¬(x.st.c = .toLock ∧ x.told = false)) :
    stepTold conf x = { x with st := stepCommit conf x.st, told := x.told && decide ((stepCommit conf x.st).c = .toLock) } := if_neg h

/-- The calls do not disturb the threads: the states are those of the executions without them. -/
theorem trun_run (conf : Nat → Bool) (x : Told) : ∀ as, ∃ bs, (trun conf x as).st = run conf x.st bs := by
  apply list_induct
  · exact ⟨[], rfl⟩
  · rintro as a ⟨bs, hb⟩
    rw [trun_snoc]
    cases a with
    | commit =>
      by_cases h : (trun conf x as).st.c = .toLock ∧ (trun conf x as).told = false
      · refine ⟨bs, ?_⟩
        show (stepTold conf _).st = _
        rw [stepTold_call conf h.1 h.2]
        exact hb
      · refine ⟨bs ++ [.commit], ?_⟩
        show (stepTold conf _).st = _
        rw [stepTold_go conf h, run_snoc, ← hb]
        rfl
    | handle n t => exact ⟨bs ++ [.handle n t], by rw [run_snoc, ← hb]; rfl⟩
    | log n => exact ⟨bs ++ [.log n], by rw [run_snoc, ← hb]; rfl⟩
    | srv => exact ⟨bs ++ [.srv], by rw [run_snoc, ← hb]; rfl⟩
    | dtor => exact ⟨bs ++ [.dtor], by rw [run_snoc, ← hb]; rfl⟩
    | wake t => exact ⟨bs ++ [.wake t], by rw [run_snoc, ← hb]; rfl⟩

/-! ## The threads other than the commit thread -/

/-- What the other threads can do to the commit thread: wake it. -/
theorem other_c (conf : Nat → Bool) (s : St) {a : Act} (ha : a ≠ .commit) :
    (step conf s a).sm = s.sm ∧ ((step conf s a).c = s.c ∨ s.c = .waiting ∧ (step conf s a).c = .woken) := by
  have ht : s.tell.c = s.c ∨ s.c = .waiting ∧ s.tell.c = .woken := by
    show (if s.c = .waiting then _ else _) = _ ∨ _
    by_cases h : s.c = .waiting
    · exact .inr ⟨h, if_pos h⟩
    · exact .inl (if_neg h)
  cases a with
  | commit => exact absurd rfl ha
  | handle n t =>
    show (if s.lock = none then _ else _ : St).sm = _ ∧ ((if s.lock = none then _ else _ : St).c = _ ∨ _ ∧ (if s.lock = none then _ else _ : St).c = _)
    split <;> exact ⟨rfl, .inl rfl⟩
  | log n =>
    show (if s.lock = none then _ else _ : St).sm = _ ∧ ((if s.lock = none then _ else _ : St).c = _ ∨ _ ∧ (if s.lock = none then _ else _ : St).c = _)
    split <;> exact ⟨rfl, .inl rfl⟩
  | srv =>
    show (stepSrv s).sm = _ ∧ ((stepSrv s).c = _ ∨ _ ∧ (stepSrv s).c = _)
    unfold stepSrv
    rcases s.k with _ | t | _
    · exact ⟨rfl, .inl rfl⟩
    · exact ⟨rfl, .inl rfl⟩
    · show (if s.work then _ else _ : St).sm = _ ∧ ((if s.work then _ else _ : St).c = _ ∨ _ ∧ (if s.work then _ else _ : St).c = _)
      cases s.work
      · exact ⟨rfl, .inl rfl⟩
      · exact ⟨rfl, ht⟩
  | dtor =>
    show (stepDtor s).sm = _ ∧ ((stepDtor s).c = _ ∨ _ ∧ (stepDtor s).c = _)
    unfold stepDtor
    rcases s.d with _ | _ | _ | _ | _ | _ | _ | _ | _ | _
    · show (if s.lock = none then _ else _ : St).sm = _ ∧ ((if s.lock = none then _ else _ : St).c = _ ∨ _ ∧ (if s.lock = none then _ else _ : St).c = _)
      split <;> exact ⟨rfl, .inl rfl⟩
    · exact ⟨rfl, .inl rfl⟩
    · show (if s.commitLock = none then _ else _ : St).sm = _ ∧ ((if s.commitLock = none then _ else _ : St).c = _ ∨ _ ∧ (if s.commitLock = none then _ else _ : St).c = _)
      split <;> exact ⟨rfl, .inl rfl⟩
    · exact ⟨rfl, ht⟩
    · show (if s.stopLock = none then _ else _ : St).sm = _ ∧ ((if s.stopLock = none then _ else _ : St).c = _ ∨ _ ∧ (if s.stopLock = none then _ else _ : St).c = _)
      split <;> exact ⟨rfl, .inl rfl⟩
    · exact ⟨rfl, .inl rfl⟩
    · exact ⟨rfl, .inl rfl⟩
    · exact ⟨rfl, .inl rfl⟩
    · show (if s.stopLock = none then _ else _ : St).sm = _ ∧ ((if s.stopLock = none then _ else _ : St).c = _ ∨ _ ∧ (if s.stopLock = none then _ else _ : St).c = _)
      split <;> exact ⟨rfl, .inl rfl⟩
    · exact ⟨rfl, .inl rfl⟩
  | wake t =>
    cases t with
    | commit =>
      show (if s.c = .waiting then _ else _ : St).sm = _ ∧ ((if s.c = .waiting then _ else _ : St).c = _ ∨ _ ∧ (if s.c = .waiting then _ else _ : St).c = _)
      by_cases h : s.c = .waiting
      · rw [if_pos h]; exact ⟨rfl, .inr ⟨h, rfl⟩⟩
      · rw [if_neg h]; exact ⟨rfl, .inl rfl⟩
    | dtor =>
      show (if s.d = .waiting then _ else _ : St).sm = _ ∧ ((if s.d = .waiting then _ else _ : St).c = _ ∨ _ ∧ (if s.d = .waiting then _ else _ : St).c = _)
      split <;> exact ⟨rfl, .inl rfl⟩
    | srv => exact ⟨rfl, .inl rfl⟩

/-- The destructor and spurious wake-ups leave the commit index and the log alone. -/
theorem other_work (conf : Nat → Bool) (s : St) {a : Act} (hc : a ≠ .commit) (h1 : a ≠ .srv) (h2 : ∀ n t, a ≠ .handle n t)
    (h3 : ∀ n, a ≠ .log n) : (step conf s a).quick = s.quick ∧ (step conf s a).next = s.next := by
  cases a with
  | commit => exact absurd rfl hc
  | handle n t => exact absurd rfl (h2 n t)
  | log n => exact absurd rfl (h3 n)
  | srv => exact absurd rfl h1
  | dtor =>
    show (stepDtor s).quick = _ ∧ (stepDtor s).next = _
    unfold stepDtor
    rcases s.d with _ | _ | _ | _ | _ | _ | _ | _ | _ | _
    · show (if s.lock = none then _ else _ : St).quick = _ ∧ (if s.lock = none then _ else _ : St).next = _
      split <;> exact ⟨rfl, rfl⟩
    · exact ⟨rfl, rfl⟩
    · show (if s.commitLock = none then _ else _ : St).quick = _ ∧ (if s.commitLock = none then _ else _ : St).next = _
      split <;> exact ⟨rfl, rfl⟩
    · exact ⟨rfl, rfl⟩
    · show (if s.stopLock = none then _ else _ : St).quick = _ ∧ (if s.stopLock = none then _ else _ : St).next = _
      split <;> exact ⟨rfl, rfl⟩
    · exact ⟨rfl, rfl⟩
    · exact ⟨rfl, rfl⟩
    · exact ⟨rfl, rfl⟩
    · show (if s.stopLock = none then _ else _ : St).quick = _ ∧ (if s.stopLock = none then _ else _ : St).next = _
      split <;> exact ⟨rfl, rfl⟩
    · exact ⟨rfl, rfl⟩
  | wake t =>
    cases t with
    | commit =>
      show (if s.c = .waiting then _ else _ : St).quick = _ ∧ (if s.c = .waiting then _ else _ : St).next = _
      split <;> exact ⟨rfl, rfl⟩
    | dtor =>
      show (if s.d = .waiting then _ else _ : St).quick = _ ∧ (if s.d = .waiting then _ else _ : St).next = _
      split <;> exact ⟨rfl, rfl⟩
    | srv => exact ⟨rfl, rfl⟩

/-- A step of the commit thread that reaches line 891 was the test, and found nothing to apply. -/
theorem reaches_call (conf : Nat → Bool) {s : St} (h : (stepCommit conf s).c = .toLock) (hc : s.c ≠ .toLock) :
    s.work = false ∧ stepCommit conf s = { s with c := .toLock } := by
  unfold stepCommit at h ⊢
  rcases hs : s.c with _ | _ | _ | _ | _ | _ | _ | _ | _ | _ | _ | _ | _ <;> rw [hs] at h
  case check =>
    change (if s.work then _ else _ : St).c = _ at h
    cases hw : s.work
    · exact ⟨rfl, rfl⟩
    · rw [hw] at h; cases h
  case toLock => exact absurd hs hc
  case locked => cases h
  case waiting => change s.c = _ at h; rw [hs] at h; cases h
  case woken =>
    change (if s.commitLock = none then _ else _ : St).c = _ at h
    split at h
    · cases h
    · rw [hs] at h; cases h
  case test =>
    change (if s.stopping then _ else _ : St).c = _ at h
    cases hw : s.stopping <;> rw [hw] at h <;> cases h
  case loop =>
    change (if s.work then _ else _ : St).c = _ at h
    cases hw : s.work <;> rw [hw] at h <;> cases h
  case entry =>
    change (if conf s.sm then _ else _ : St).c = _ at h
    cases hw : conf s.sm <;> rw [hw] at h <;> cases h
  case conf =>
    change (if s.lock = none then _ else _ : St).c = _ at h
    split at h
    · cases h
    · rw [hs] at h; cases h
  case confHeld => cases h
  case bye =>
    change (if s.stopLock = none then _ else _ : St).c = _ at h
    split at h
    · cases h
    · rw [hs] at h; cases h
  case byeHeld => cases h
  case ended => change s.c = _ at h; rw [hs] at h; cases h

/-! ## What a report says -/

/-- A moment of the execution at which the thread found nothing to apply, with `sm` entries applied. -/
def FoundNone (conf : Nat → Bool) (x : Told) (as : List Act) (sm : Nat) : Prop :=
  ∃ pre post, as = pre ++ post ∧ (trun conf x pre).st.sm = sm ∧ ((trun conf x pre).st.quick ≤ sm ∨ (trun conf x pre).st.next - 1 ≤ sm)

theorem FoundNone.snoc {conf : Nat → Bool} {x : Told} {as : List Act} {n : Nat} (h : FoundNone conf x as n) (a : Act) :
    FoundNone conf x (as ++ [a]) n := by
  obtain ⟨pre, post, rfl, h⟩ := h
  exact ⟨pre, post ++ [a], List.append_assoc .., h⟩

theorem not_work {s : St} (h : s.work = false) : s.quick ≤ s.sm ∨ s.next - 1 ≤ s.sm := by
  have : ¬(s.sm < s.quick ∧ s.sm < s.next - 1) := by rw [← work_iff, h]; simp
  omega

theorem found (conf : Nat → Bool) (sm next : Nat) : ∀ as,
    ((trun conf (Told.init sm next) as).st.c = .toLock → FoundNone conf (Told.init sm next) as (trun conf (Told.init sm next) as).st.sm) ∧
    ∀ r ∈ (trun conf (Told.init sm next) as).calls, FoundNone conf (Told.init sm next) as r.sm := by
  apply list_induct
  · exact ⟨fun h => (by cases h), fun r h => (by cases h)⟩
  · intro as a ih
    generalize hx : trun conf (Told.init sm next) as = x at ih
    have e := trun_snoc conf (Told.init sm next) as a
    rw [hx] at e
    rw [e]
    by_cases ha : a = .commit
    · subst ha
      show ((stepTold conf x).st.c = .toLock → FoundNone _ _ _ (stepTold conf x).st.sm) ∧ ∀ r ∈ (stepTold conf x).calls, _
      by_cases h : x.st.c = .toLock ∧ x.told = false
      · rw [stepTold_call conf h.1 h.2]
        refine ⟨fun _ => (ih.1 h.1).snoc _, fun r hr => ?_⟩
        rcases List.mem_append.mp hr with hr | hr
        · exact (ih.2 r hr).snoc _
        · rw [List.mem_singleton] at hr
          subst hr
          exact (ih.1 h.1).snoc _
      · rw [stepTold_go conf h]
        refine ⟨fun hc => ?_, fun r hr => (ih.2 r hr).snoc _⟩
        change (stepCommit conf x.st).c = .toLock at hc
        show FoundNone _ _ _ (stepCommit conf x.st).sm
        by_cases hc' : x.st.c = .toLock
        · have : (stepCommit conf x.st).sm = x.st.sm := by
            unfold stepCommit
            rw [hc']
            show (if x.st.commitLock = none then _ else _ : St).sm = _
            split <;> rfl
          rw [this]
          exact (ih.1 hc').snoc _
        · obtain ⟨hw, he⟩ := reaches_call conf hc hc'
          rw [he]
          exact ⟨as, [.commit], rfl, by rw [hx], by rw [hx]; exact not_work hw⟩
    · have hs : tstep conf x a = { x with st := step conf x.st a } := by cases a <;> first | rfl | exact absurd rfl ha
      rw [hs]
      obtain ⟨h1, h2⟩ := other_c conf x.st ha
      refine ⟨fun hc => ?_, fun r hr => (ih.2 r hr).snoc _⟩
      show FoundNone _ _ _ (step conf x.st a).sm
      rw [h1]
      rcases h2 with h2 | ⟨_, h2⟩
      · exact (ih.1 (h2.symm.trans hc)).snoc _
      · cases h2.symm.trans hc

/-- C116, what always holds. At some moment before the report, and with the same entries applied as in the report, all entries
that the server then had or all that it then knew to be committed were applied. -/
theorem report_was_true_partial (conf : Nat → Bool) (sm next : Nat) (as : List Act) {r : Report}
    (h : r ∈ (trun conf (Told.init sm next) as).calls) :
    ∃ pre post, as = pre ++ post ∧ (trun conf (Told.init sm next) pre).st.sm = r.sm ∧
      ((trun conf (Told.init sm next) pre).st.quick ≤ r.sm ∨ (trun conf (Told.init sm next) pre).st.next - 1 ≤ r.sm) :=
  (found conf sm next as).2 r h

theorem Quiet.front {conf : Nat → Bool} {x : Told} {as bs : List Act} (h : Quiet conf x (as ++ bs)) : Quiet conf x as :=
  fun pre a post e => h pre a (post ++ bs) (by rw [e, List.append_assoc]; rfl)

theorem quiet_calls (conf : Nat → Bool) (sm next : Nat) : ∀ as, Quiet conf (Told.init sm next) as →
    ((trun conf (Told.init sm next) as).st.c = .toLock → (trun conf (Told.init sm next) as).told = false →
      (trun conf (Told.init sm next) as).st.work = false) ∧
    ∀ r ∈ (trun conf (Told.init sm next) as).calls, r.quick ≤ r.sm ∨ r.next - 1 ≤ r.sm := by
  apply list_induct
  · exact fun _ => ⟨fun h => (by cases h), fun r h => (by cases h)⟩
  · intro as a ih hq
    replace ih := ih hq.front
    have hq' := hq as a [] rfl
    generalize hx : trun conf (Told.init sm next) as = x at ih hq'
    have e := trun_snoc conf (Told.init sm next) as a
    rw [hx] at e
    rw [e]
    by_cases ha : a = .commit
    · subst ha
      show ((stepTold conf x).st.c = .toLock → (stepTold conf x).told = false → (stepTold conf x).st.work = false) ∧
        ∀ r ∈ (stepTold conf x).calls, _
      by_cases h : x.st.c = .toLock ∧ x.told = false
      · rw [stepTold_call conf h.1 h.2]
        refine ⟨fun _ h => (by cases h), fun r hr => ?_⟩
        rcases List.mem_append.mp hr with hr | hr
        · exact ih.2 r hr
        · rw [List.mem_singleton] at hr
          subst hr
          exact not_work (ih.1 h.1 h.2)
      · rw [stepTold_go conf h]
        refine ⟨fun hc ht => ?_, ih.2⟩
        change (stepCommit conf x.st).c = .toLock at hc
        change (x.told && decide ((stepCommit conf x.st).c = .toLock)) = false at ht
        rw [decide_eq_true hc, Bool.and_true] at ht
        by_cases hc' : x.st.c = .toLock
        · exact absurd ⟨hc', ht⟩ h
        · obtain ⟨hw, he⟩ := reaches_call conf hc hc'
          show (stepCommit conf x.st).work = false
          rw [he]
          exact hw
    · have hs : tstep conf x a = { x with st := step conf x.st a } := by cases a <;> first | rfl | exact absurd rfl ha
      rw [hs]
      obtain ⟨h1, h2⟩ := other_c conf x.st ha
      refine ⟨fun hc ht => ?_, ih.2⟩
      change (step conf x.st a).c = _ at hc
      change x.told = false at ht
      rcases h2 with h2 | ⟨_, h2⟩
      · have hc' := h2.symm.trans hc
        obtain ⟨q1, q2, q3⟩ := hq' hc' ht
        obtain ⟨w1, w2⟩ := other_work conf x.st ha q1 q2 q3
        show (step conf x.st a).work = false
        unfold St.work
        rw [w1, w2, h1]
        exact ih.1 hc' ht
      · cases h2.symm.trans hc

/-- C116, the part that holds: when no handler comes between the test and the report, and the server has the entries it knows to be
committed, then a server that reports has applied all of them. -/
theorem caught_up_when_told_partial (conf : Nat → Bool) (sm next : Nat) (as : List Act) (hq : Quiet conf (Told.init sm next) as)
    {r : Report} (h : r ∈ (trun conf (Told.init sm next) as).calls) (hr : r.Complete) : r.True := by
  have := (quiet_calls conf sm next as hq).2 r h
  unfold Report.Complete at hr
  unfold Report.True
  omega

/-! ## Whoever waits has reported -/

/-- Between the report and the next test. -/
def CPc.after : CPc → Bool
  | .locked | .waiting | .woken | .test => true
  | _ => false

theorem after_step (conf : Nat → Bool) {s : St} (h : (stepCommit conf s).c.after = true) :
    (stepCommit conf s).sm = s.sm ∧ (s.c.after = true ∨ s.c = .toLock) := by
  unfold stepCommit at h ⊢
  rcases hs : s.c with _ | _ | _ | _ | _ | _ | _ | _ | _ | _ | _ | _ | _ <;> rw [hs] at h
  case check =>
    change (if s.work then _ else _ : St).c.after = _ at h
    cases hw : s.work <;> rw [hw] at h <;> cases h
  case toLock =>
    refine ⟨?_, .inr rfl⟩
    show (if s.commitLock = none then _ else _ : St).sm = _
    split <;> rfl
  case locked => exact ⟨rfl, .inl rfl⟩
  case waiting => exact ⟨rfl, .inl rfl⟩
  case woken =>
    refine ⟨?_, .inl rfl⟩
    show (if s.commitLock = none then _ else _ : St).sm = _
    split <;> rfl
  case test =>
    refine ⟨?_, .inl rfl⟩
    show (if s.stopping then _ else _ : St).sm = _
    split <;> rfl
  case loop =>
    change (if s.work then _ else _ : St).c.after = _ at h
    cases hw : s.work <;> rw [hw] at h <;> cases h
  case entry =>
    change (if conf s.sm then _ else _ : St).c.after = _ at h
    cases hw : conf s.sm <;> rw [hw] at h <;> cases h
  case conf =>
    change (if s.lock = none then _ else _ : St).c.after = _ at h
    split at h
    · cases h
    · rw [hs] at h; cases h
  case confHeld => cases h
  case bye =>
    change (if s.stopLock = none then _ else _ : St).c.after = _ at h
    split at h
    · cases h
    · rw [hs] at h; cases h
  case byeHeld => cases h
  case ended => change s.c.after = _ at h; rw [hs] at h; cases h

/-- The last report names `sm` entries. -/
def LastSays (x : Told) : Prop := ∃ l r, x.calls = l ++ [r] ∧ r.sm = x.st.sm

theorem lock_step (conf : Nat → Bool) {s : St} (h : s.c = .toLock) : (stepCommit conf s).sm = s.sm := by
  unfold stepCommit
  rw [h]
  show (if s.commitLock = none then _ else _ : St).sm = _
  split <;> rfl

theorem says (conf : Nat → Bool) (sm next : Nat) : ∀ as,
    ((trun conf (Told.init sm next) as).st.c.after = true ∨ (trun conf (Told.init sm next) as).told = true →
      LastSays (trun conf (Told.init sm next) as)) ∧
    ((trun conf (Told.init sm next) as).told = true → (trun conf (Told.init sm next) as).st.c = .toLock) := by
  apply list_induct
  · exact ⟨fun h => (by rcases h with h | h <;> cases h), fun h => (by cases h)⟩
  · intro as a ih
    generalize hx : trun conf (Told.init sm next) as = x at ih
    have e := trun_snoc conf (Told.init sm next) as a
    rw [hx] at e
    rw [e]
    by_cases ha : a = .commit
    · subst ha
      show ((stepTold conf x).st.c.after = true ∨ (stepTold conf x).told = true → LastSays (stepTold conf x)) ∧
        ((stepTold conf x).told = true → (stepTold conf x).st.c = .toLock)
      by_cases h : x.st.c = .toLock ∧ x.told = false
      · rw [stepTold_call conf h.1 h.2]
        exact ⟨fun _ => ⟨x.calls, _, rfl, rfl⟩, fun _ => h.1⟩
      · rw [stepTold_go conf h]
        constructor
        · intro h2
          have keep : (stepCommit conf x.st).sm = x.st.sm → LastSays x →
              LastSays { x with st := stepCommit conf x.st, told := x.told && decide ((stepCommit conf x.st).c = .toLock) } :=
            fun h3 ⟨l, r, h4, h5⟩ => ⟨l, r, h4, h5.trans h3.symm⟩
          rcases h2 with h2 | h2
          · obtain ⟨h3, h4⟩ := after_step conf h2
            rcases h4 with h4 | h4
            · exact keep h3 (ih.1 (.inl h4))
            · cases ht : x.told with
              | false => exact absurd ⟨h4, ht⟩ h
              | true => rw [ht] at keep; exact keep h3 (ih.1 (.inr ht))
          · have h3 := (Bool.and_eq_true ..).mp h2
            exact keep (lock_step conf (ih.2 h3.1)) (ih.1 (.inr h3.1))
        · intro h2
          exact of_decide_eq_true ((Bool.and_eq_true ..).mp h2).2
    · have hs : tstep conf x a = { x with st := step conf x.st a } := by cases a <;> first | rfl | exact absurd rfl ha
      rw [hs]
      obtain ⟨h1, h2⟩ := other_c conf x.st ha
      have keep : LastSays x → LastSays { x with st := step conf x.st a } := fun ⟨l, r, h4, h5⟩ => ⟨l, r, h4, h5.trans h1.symm⟩
      constructor
      · rintro (h3 | h3)
        · refine keep (ih.1 (.inl ?_))
          change (step conf x.st a).c.after = true at h3
          rcases h2 with h2 | ⟨h2, _⟩
          · rw [h2] at h3; exact h3
          · rw [h2]; rfl
        · exact keep (ih.1 (.inr h3))
      · intro h3
        have h4 := ih.2 h3
        rcases h2 with h2 | ⟨h2, _⟩
        · exact h2.trans h4
        · cases h2.symm.trans h4

/-- C116, the converse: a commit thread that waits has reported since it applied the last entry. -/
theorem waiting_has_told (conf : Nat → Bool) (sm next : Nat) (as : List Act)
    (h : (trun conf (Told.init sm next) as).st.c = .waiting) :
    ∃ l r, (trun conf (Told.init sm next) as).calls = l ++ [r] ∧ r.sm = (trun conf (Told.init sm next) as).st.sm :=
  (says conf sm next as).1 (.inl (by rw [h]; rfl))

/-! ## Cases -/

/-- `Quiet`, decided. -/
def quietB (conf : Nat → Bool) : Told → List Act → Bool
  | _, [] => true
  | x, a :: as => (!(decide (x.st.c = .toLock) && !x.told) || (match a with | .srv | .handle _ _ | .log _ => false | _ => true)) &&
      quietB conf (tstep conf x a) as

theorem quiet_of (conf : Nat → Bool) : ∀ as x, quietB conf x as = true → Quiet conf x as := by
  intro as
  induction as with
  | nil => intro x _ pre a post e; cases pre <;> cases e
  | cons b bs ih =>
    intro x h pre a post e
    obtain ⟨h1, h2⟩ := (Bool.and_eq_true ..).mp h
    cases pre with
    | nil =>
      injection e with e1 e2
      subst e1
      intro hc ht
      change x.st.c = .toLock at hc
      change x.told = false at ht
      rw [hc, ht] at h1
      refine ⟨?_, ?_, ?_⟩
      · rintro rfl; cases h1
      · rintro n t rfl; cases h1
      · rintro n rfl; cases h1
    | cons c pre =>
      injection e with e1 e2
      subst e1
      exact ih _ h2 pre a post e2

/-- A server that has stored two entries, and is told that they are committed. -/
def storesTwo : List Act := [.commit, .commit, .commit, .commit, .handle 3 2, .srv, .srv] ++ List.replicate 10 .commit

/-- The hypotheses of `caught_up_when_told_partial` are met: such a server reports once when it starts, and again when the two entries are applied. -/
example : Quiet (fun _ => false) (Told.init 0 1) storesTwo ∧
    (trun (fun _ => false) (Told.init 0 1) storesTwo).calls = [⟨0, 0, 1⟩, ⟨2, 2, 3⟩] ∧
    ∀ r ∈ (trun (fun _ => false) (Told.init 0 1) storesTwo).calls, r.Complete :=
  have h : (trun (fun _ => false) (Told.init 0 1) storesTwo).calls = [⟨0, 0, 1⟩, ⟨2, 2, 3⟩] := by decide +kernel
  ⟨quiet_of _ _ _ (by decide +kernel), h, by
    rw [h]
    intro r hr
    rcases List.mem_cons.mp hr with rfl | hr
    · show 0 < 1; decide
    · rw [List.mem_singleton] at hr; subst hr; show 2 < 3; decide⟩

/-- The hypothesis of `waiting_has_told` is met by this server when it has taken the mutex. -/
example : (trun (fun _ => false) (Told.init 0 1) (storesTwo ++ [.commit, .commit])).st.c = .waiting ∧
    (trun (fun _ => false) (Told.init 0 1) (storesTwo ++ [.commit, .commit])).st.sm = 2 := by decide +kernel

/-- C116 fails on a server that is several requests behind: it stores two entries, and is told that five are committed. When it has
applied the two it reports, with no handler in between. -/
theorem told_with_entries_missing : ∃ as, Quiet (fun _ => false) (Told.init 0 1) as ∧
    ∃ r ∈ (trun (fun _ => false) (Told.init 0 1) as).calls, ¬ r.True ∧ r.sm = 2 ∧ r.quick = 5 :=
  ⟨[.commit, .commit, .commit, .commit, .handle 3 5, .srv, .srv] ++ List.replicate 10 .commit, quiet_of _ _ _ (by decide +kernel),
    ⟨2, 5, 3⟩, by decide +kernel, fun h => absurd h (by show ¬ 5 ≤ 2; decide), rfl, rfl⟩

/-- C116 fails when a handler comes between the test and the report: the entry is stored and committed, and the server reports before
it applies it. Then it waits, and the entry is not applied. -/
theorem told_too_late (conf : Nat → Bool) : ∃ as r, (trun conf (Told.init 0 1) as).calls = [r] ∧ ¬ r.True ∧ r.Complete ∧
    (trun conf (Told.init 0 1) as).st.stuck := by
  refine ⟨[.commit, .handle 2 1, .srv, .srv, .commit, .commit, .commit], ⟨0, 1, 2⟩, rfl, ?_, ?_, rfl, ?_, ?_, rfl⟩
  · show ¬ 1 ≤ 0; decide
  · show 1 < 2; decide
  · show 0 < 1; decide
  · show 0 < 2 - 1; decide

/-- C116: each server reports as soon as it is started, before it can know which entries of its log are committed. -/
theorem told_at_start (conf : Nat → Bool) (sm next : Nat) :
    (trun conf (Told.init sm next) [.commit, .commit]).calls = [⟨sm, sm, next⟩] := by
  have h : stepTold conf (Told.init sm next) = { Told.init sm next with st := { St.init sm next with c := .toLock } } := by
    rw [stepTold_go conf (fun h => (by cases h.1))]
    have hw : (St.init sm next).work = false := by
      show (decide (sm < sm) && _) = false
      rw [decide_eq_false (Nat.lt_irrefl sm)]; rfl
    have : stepCommit conf (St.init sm next) = { St.init sm next with c := .toLock } := by
      show (if (St.init sm next).work then _ else _) = _
      rw [hw]; rfl
    show ({ st := stepCommit conf (St.init sm next), told := false && _, calls := [] } : Told) = _
    rw [this]; rfl
  show (stepTold conf (stepTold conf (Told.init sm next))).calls = _
  rw [h, stepTold_call conf rfl rfl]
  rfl

end Cs.Commit
