import Verif.Conc.Timer

/-!
# Timers (C55)

A cancelled task can still be executed, when a worker thread has passed the test of the flag; and an expiry that is queued when
the task is cancelled executes the task if it is scheduled again before a worker thread takes the expiry from the queue. These are
the only ways.
-/

namespace Cs.Timer

theorem run_append (s : St) (as bs : List Act) : run s (as ++ bs) = run (run s as) bs := List.foldl_append

theorem run_snoc (s : St) (as : List Act) (a : Act) : run s (as ++ [a]) = step (run s as) a := by rw [run_append]; rfl

/-- Induction over executions. -/
theorem run_induct {P : St → Prop} {A : Act → Prop} (hs : ∀ s a, A a → P s → P (step s a)) {s : St} (h : P s) :
    ∀ as, (∀ a ∈ as, A a) → P (run s as) := by
  intro as
  induction as generalizing s with
  | nil => intro _; exact h
  | cons a as ih =>
    intro ha
    exact ih (hs s a (ha a (List.mem_cons_self ..)) h) fun b hb => ha b (List.mem_cons_of_mem _ hb)

/-- No worker thread is between the test of the flag and the call of `exec`. -/
def St.noneChecked (s : St) : Prop := .checked ∉ s.waits

/-- No expiry is queued, and no worker thread is between the test of the flag and the call of `exec`. -/
def St.noneLate (s : St) : Prop := .checked ∉ s.waits ∧ .queued false ∉ s.waits

theorem mem_abort {ws : List WPc} {w : WPc} (h : w ∈ abort ws) : w = .queued true ∨ w ∈ ws := by
  obtain ⟨v, hv, rfl⟩ := List.mem_map.1 h
  by_cases hp : v = .pending
  · left; rw [if_pos hp]
  · right; rw [if_neg hp]; exact hv

theorem abort_get (ws : List WPc) (i : Nat) :
    (abort ws)[i]? = (ws[i]?).map fun w => if w = .pending then .queued true else w := List.getElem?_map ..

theorem mem_set' {ws : List WPc} {i : Nat} {v w : WPc} (h : w ∈ ws.set i v) : w = v ∨ w ∈ ws :=
  (List.mem_or_eq_of_mem_set h).symm

/-- The flag is set, and nobody is past its test. -/
structure Off (s : St) (es : List Nat) : Prop where
  flag : s.cancelled = true
  owner : s.owner ≠ .resetDone
  none : .checked ∉ s.waits
  execs : s.execs = es

theorem off_step {s : St} {es : List Nat} (h : Off s es) (a : Act) (ha : a ≠ .schedule) : Off (step s a) es := by
  obtain ⟨h1, h2, h3, h4⟩ := h
  cases a with
  | schedule => exact absurd rfl ha
  | cancel =>
    show Off (if s.owner = .idle then _ else _) es
    by_cases ho : s.owner = .idle
    · rw [if_pos ho]
      exact ⟨h1, (by intro h; cases h), fun h => (mem_abort h).elim (by intro h; cases h) h3, h4⟩
    · rw [if_neg ho]; exact ⟨h1, h2, h3, h4⟩
  | owner =>
    show Off (stepOwner s) es
    unfold stepOwner
    split
    · exact ⟨h1, h2, h3, h4⟩
    · rename_i h; exact absurd h h2
    · refine ⟨h1, (by intro h; cases h), fun h => ?_, h4⟩
      rcases List.mem_append.1 h with h | h
      · exact h3 h
      · cases List.mem_singleton.1 h
    · exact ⟨rfl, (by intro h; cases h), h3, h4⟩
  | expire i =>
    show Off (if s.waits[i]? = some .pending then _ else _) es
    by_cases hi : s.waits[i]? = some .pending
    · rw [if_pos hi]
      exact ⟨h1, h2, fun h => (mem_set' h).elim (by intro h; cases h) h3, h4⟩
    · rw [if_neg hi]; exact ⟨h1, h2, h3, h4⟩
  | take i =>
    show Off (stepTake s i) es
    unfold stepTake
    split
    · exact ⟨h1, h2, fun h => (mem_set' h).elim (by intro h; cases h) h3, h4⟩
    · refine ⟨h1, h2, fun h => ?_, h4⟩
      rcases mem_set' h with h | h
      · rw [h1, if_pos rfl] at h; cases h
      · exact h3 h
    · exact ⟨h1, h2, h3, h4⟩
  | exec i =>
    show Off (if s.waits[i]? = some .checked then _ else _) es
    have hi : s.waits[i]? ≠ some .checked := fun h => h3 (List.mem_of_getElem? h)
    rw [if_neg hi]
    exact ⟨h1, h2, h3, h4⟩

/-- C55, first half, for the case that no worker thread is between the test of the flag and the call of `exec` when `cancel`
returns: the task is not executed until `schedule` is called.

Missing: the other case, where it fails, `cancelled_task_executes`. -/
theorem cancelled_not_executed_partial (as bs : List Act) (hc : (run {} as).owner = .timerCancelled)
    (hn : (run {} (as ++ [.owner])).noneChecked) (hb : .schedule ∉ bs) :
    (run {} (as ++ [.owner] ++ bs)).execs = (run {} (as ++ [.owner])).execs := by
  rw [run_append]
  have h0 : Off (run {} (as ++ [.owner])) (run {} (as ++ [.owner])).execs := by
    have e : run {} (as ++ [.owner]) = { run {} as with cancelled := true, owner := .idle } := by
      rw [run_snoc]
      show stepOwner _ = _
      unfold stepOwner
      rw [hc]
    refine ⟨?_, ?_, hn, rfl⟩
    · rw [e]
    · rw [e]; intro h; cases h
  exact (run_induct (P := fun s => Off s _) (A := fun a => a ≠ .schedule) (fun s a ha h => off_step h a ha) h0 bs
    (fun a ha e => hb (e ▸ ha))).execs

/-- The waits below `g` do not execute the task any more. -/
structure Gone (g : Nat) (s : St) (es : List Nat) : Prop where
  len : g ≤ s.waits.length
  old : ∀ i, i < g → s.waits[i]? = some (.queued true) ∨ s.waits[i]? = some .done
  execs : ∃ new, s.execs = new ++ es ∧ ∀ i ∈ new, g ≤ i

theorem gone_set {g : Nat} {s : St} {es : List Nat} (h : Gone g s es) {i : Nat} {v : WPc}
    (hv : i < g → v = .queued true ∨ v = .done) :
    ∀ j, j < g → (s.waits.set i v)[j]? = some (.queued true) ∨ (s.waits.set i v)[j]? = some .done := by
  intro j hj
  rw [List.getElem?_set]
  by_cases hij : i = j
  · subst hij
    rw [if_pos rfl, if_pos (Nat.lt_of_lt_of_le hj h.len)]
    rcases hv hj with rfl | rfl
    · exact .inl rfl
    · exact .inr rfl
  · rw [if_neg hij]; exact h.old j hj

theorem gone_abort {g : Nat} {s : St} {es : List Nat} (h : Gone g s es) :
    ∀ j, j < g → (abort s.waits)[j]? = some (.queued true) ∨ (abort s.waits)[j]? = some .done := by
  intro j hj
  rw [abort_get]
  rcases h.old j hj with e | e <;> rw [e]
  · exact .inl rfl
  · exact .inr rfl

theorem gone_step {g : Nat} {s : St} {es : List Nat} (h : Gone g s es) (a : Act) : Gone g (step s a) es := by
  have hnot : ∀ {i w}, s.waits[i]? = some w → w ≠ .queued true → w ≠ .done → ¬ i < g := by
    intro i w hw h1 h2 hi
    rcases h.old i hi with e | e <;> rw [hw] at e <;> cases e
    · exact h1 rfl
    · exact h2 rfl
  cases a with
  | schedule =>
    show Gone g (if s.owner = .idle then _ else _) es
    by_cases ho : s.owner = .idle
    · rw [if_pos ho]; exact ⟨h.len, h.old, h.execs⟩
    · rw [if_neg ho]; exact h
  | cancel =>
    show Gone g (if s.owner = .idle then _ else _) es
    by_cases ho : s.owner = .idle
    · rw [if_pos ho]; exact ⟨by show g ≤ (abort s.waits).length; rw [abort, List.length_map]; exact h.len, gone_abort h, h.execs⟩
    · rw [if_neg ho]; exact h
  | owner =>
    show Gone g (stepOwner s) es
    unfold stepOwner
    split
    · exact h
    · exact ⟨by show g ≤ (abort s.waits).length; rw [abort, List.length_map]; exact h.len, gone_abort h, h.execs⟩
    · refine ⟨?_, fun i hi => ?_, h.execs⟩
      · show g ≤ (s.waits ++ [WPc.pending]).length
        rw [List.length_append]; exact Nat.le_add_right_of_le h.len
      · show (s.waits ++ [WPc.pending])[i]? = _ ∨ (s.waits ++ [WPc.pending])[i]? = _
        rw [List.getElem?_append_left (Nat.lt_of_lt_of_le hi h.len)]; exact h.old i hi
    · exact ⟨h.len, h.old, h.execs⟩
  | expire i =>
    show Gone g (if s.waits[i]? = some .pending then _ else _) es
    by_cases hi : s.waits[i]? = some .pending
    · rw [if_pos hi]
      refine ⟨?_, gone_set h fun hlt => absurd hlt (hnot hi (by intro h; cases h) (by intro h; cases h)), h.execs⟩
      show g ≤ (s.waits.set i _).length
      rw [List.length_set]; exact h.len
    · rw [if_neg hi]; exact h
  | take i =>
    show Gone g (stepTake s i) es
    unfold stepTake
    split
    · refine ⟨?_, gone_set h fun _ => .inr rfl, h.execs⟩
      show g ≤ (s.waits.set i _).length
      rw [List.length_set]; exact h.len
    · rename_i hi
      refine ⟨?_, gone_set h fun hlt => absurd hlt (hnot hi (by intro h; cases h) (by intro h; cases h)), h.execs⟩
      show g ≤ (s.waits.set i _).length
      rw [List.length_set]; exact h.len
    · exact h
  | exec i =>
    show Gone g (if s.waits[i]? = some .checked then _ else _) es
    by_cases hi : s.waits[i]? = some .checked
    · rw [if_pos hi]
      refine ⟨?_, gone_set h fun _ => .inr rfl, ?_⟩
      · show g ≤ (s.waits.set i _).length
        rw [List.length_set]; exact h.len
      · obtain ⟨new, e, hn⟩ := h.execs
        refine ⟨i :: new, by show i :: s.execs = _; rw [e]; rfl, fun j hj => ?_⟩
        rcases List.mem_cons.1 hj with rfl | hj
        · exact Nat.le_of_not_lt (hnot hi (by intro h; cases h) (by intro h; cases h))
        · exact hn j hj
    · rw [if_neg hi]; exact h

/-- C55, second half, for the case that no expiry is queued and no worker thread is about to call `exec` when `cancel` or
`schedule` cancels the timer: whatever happens later, the task is executed only for calls of `schedule` that end later.

Missing: the other case, where it fails, `old_expiry_executes`. -/
theorem old_schedule_not_executed_partial (as bs : List Act) (a : Act)
    (ha : (a = .cancel ∧ (run {} as).owner = .idle) ∨ (a = .owner ∧ (run {} as).owner = .resetDone))
    (hn : (run {} as).noneLate) :
    ∃ new, (run {} (as ++ [a] ++ bs)).execs = new ++ (run {} as).execs ∧ ∀ i ∈ new, (run {} as).waits.length ≤ i := by
  rw [run_append, run_snoc]
  generalize run {} as = s at ha hn
  have hab : (step s a).waits = abort s.waits ∧ (step s a).execs = s.execs := by
    rcases ha with ⟨rfl, ho⟩ | ⟨rfl, ho⟩
    · show (if s.owner = .idle then _ else _ : St).waits = _ ∧ (if s.owner = .idle then _ else _ : St).execs = _
      rw [if_pos ho]; exact ⟨rfl, rfl⟩
    · show (stepOwner s).waits = _ ∧ (stepOwner s).execs = _
      unfold stepOwner
      rw [ho]; exact ⟨rfl, rfl⟩
  have h0 : Gone s.waits.length (step s a) s.execs := by
    refine ⟨?_, fun i hi => ?_, [], hab.2, fun i hi => (by cases hi)⟩
    · rw [hab.1, abort, List.length_map]; exact Nat.le_refl _
    · rw [hab.1, abort_get]
      have hm := List.mem_of_getElem? (List.getElem?_eq_getElem hi)
      rw [List.getElem?_eq_getElem hi]
      generalize s.waits[i] = w at hm
      cases w with
      | pending => exact .inl rfl
      | queued e =>
        cases e with
        | true => exact .inl rfl
        | false => exact absurd hm hn.2
      | checked => exact absurd hm hn.1
      | done => exact .inr rfl
  exact (run_induct (P := fun s' => Gone _ s' _) (A := fun _ => True) (fun s a _ h => gone_step h a) h0 bs fun _ _ => trivial).execs

/-- What has been executed is done. -/
structure Once (s : St) : Prop where
  nodup : s.execs.Nodup
  done : ∀ i ∈ s.execs, s.waits[i]? = some .done

theorem once_set {s : St} (h : Once s) {i : Nat} {v w : WPc} (hi : s.waits[i]? = some w) (hw : w ≠ .done) :
    ∀ j ∈ s.execs, (s.waits.set i v)[j]? = some .done := by
  intro j hj
  rw [List.getElem?_set, if_neg]
  · exact h.done j hj
  · rintro rfl
    have e := h.done _ hj
    rw [hi] at e
    cases e
    exact hw rfl

theorem once_abort {s : St} (h : Once s) : ∀ j ∈ s.execs, (abort s.waits)[j]? = some .done := by
  intro j hj
  rw [abort_get, h.done j hj]
  rfl

theorem once_step {s : St} (h : Once s) (a : Act) : Once (step s a) := by
  cases a with
  | schedule =>
    show Once (if s.owner = .idle then _ else _)
    by_cases ho : s.owner = .idle
    · rw [if_pos ho]; exact ⟨h.nodup, h.done⟩
    · rw [if_neg ho]; exact h
  | cancel =>
    show Once (if s.owner = .idle then _ else _)
    by_cases ho : s.owner = .idle
    · rw [if_pos ho]; exact ⟨h.nodup, once_abort h⟩
    · rw [if_neg ho]; exact h
  | owner =>
    show Once (stepOwner s)
    unfold stepOwner
    split
    · exact h
    · exact ⟨h.nodup, once_abort h⟩
    · refine ⟨h.nodup, fun j hj => ?_⟩
      have e := h.done j hj
      have hl : j < s.waits.length := (List.getElem?_eq_some_iff.1 e).1
      show (s.waits ++ [WPc.pending])[j]? = _
      rw [List.getElem?_append_left hl]; exact e
    · exact ⟨h.nodup, h.done⟩
  | expire i =>
    show Once (if s.waits[i]? = some .pending then _ else _)
    by_cases hi : s.waits[i]? = some .pending
    · rw [if_pos hi]; exact ⟨h.nodup, once_set h hi (by intro h; cases h)⟩
    · rw [if_neg hi]; exact h
  | take i =>
    show Once (stepTake s i)
    unfold stepTake
    split
    · rename_i hi; exact ⟨h.nodup, once_set h hi (by intro h; cases h)⟩
    · rename_i hi; exact ⟨h.nodup, once_set h hi (by intro h; cases h)⟩
    · exact h
  | exec i =>
    show Once (if s.waits[i]? = some .checked then _ else _)
    by_cases hi : s.waits[i]? = some .checked
    · rw [if_pos hi]
      refine ⟨List.nodup_cons.2 ⟨fun hm => ?_, h.nodup⟩, fun j hj => ?_⟩
      · have e := h.done i hm
        rw [hi] at e; cases e
      · rcases List.mem_cons.1 hj with rfl | hj
        · have hl : j < s.waits.length := (List.getElem?_eq_some_iff.1 hi).1
          show (s.waits.set j .done)[j]? = _
          rw [List.getElem?_set, if_pos rfl, if_pos hl]
        · exact once_set h hi (by intro h; cases h) j hj
    · rw [if_neg hi]; exact h

/-- In every interleaving, each call of `schedule` executes the task at most once. -/
theorem executed_once (as : List Act) : (run {} as).execs.Nodup :=
  (run_induct (P := Once) (A := fun _ => True) (fun s a _ h => once_step h a)
    ⟨List.nodup_nil, fun i hi => (by cases hi)⟩ as fun _ _ => trivial).nodup

/-- C55, first half, fails: `cancel` returns, and then the task is executed. -/
theorem cancelled_task_executes :
    ∃ as, (run {} as).owner = .timerCancelled ∧ (run {} (as ++ [.owner])).execs = [] ∧
      (run {} (as ++ [.owner] ++ [.exec 0])).execs = [0] :=
  ⟨[.schedule, .owner, .owner, .expire 0, .take 0, .cancel], by decide, by decide, by decide⟩

/-- C55, second half, fails: the task is scheduled, its timer expires, it is cancelled and scheduled again; the first expiry
executes it, and the second one executes it once more. -/
theorem old_expiry_executes :
    ∃ as bs, (run {} as).owner = .timerCancelled ∧ (run {} (as ++ [.owner])).noneChecked ∧
      (run {} (as ++ [.owner, .schedule, .owner, .owner])).execs = [] ∧
      (run {} (as ++ [.owner, .schedule, .owner, .owner] ++ bs)).execs = [1, 0] :=
  ⟨[.schedule, .owner, .owner, .expire 0, .cancel], [.take 0, .exec 0, .expire 1, .take 1, .exec 1], by decide,
    (by unfold St.noneChecked; decide), by decide, by decide⟩

/-- The hypotheses can be met: a timer that has not expired is cancelled, and scheduled again. -/
example : (run {} [.schedule, .owner, .owner, .cancel]).owner = .timerCancelled ∧
    (run {} [.schedule, .owner, .owner, .cancel, .owner]).noneChecked ∧
    (run {} [.schedule, .owner, .owner]).owner = .idle ∧ (run {} [.schedule, .owner, .owner]).noneLate ∧
    (run {} [.schedule, .owner, .owner, .cancel, .owner, .schedule, .owner, .owner, .expire 1, .take 1, .exec 1]).execs = [1] :=
  ⟨by decide, by unfold St.noneChecked; decide, by decide, by unfold St.noneLate; decide, by decide⟩

end Cs.Timer
