import Verif.Conc.PeerTimer
import Verif.Conc.PropsTimer

/-!
# The heartbeat of a member that is removed (C107)
-/

namespace Cs.PeerTimer
open Cs

theorem run_snoc (as : List Act) (a : Act) : run (as ++ [a]) = step (run as) a := by
  unfold run
  rw [List.foldl_append]
  rfl

/-- When the peer ended, after `bs`, these waits were past the test of the flag. -/
structure Dead (as : List Act) : Prop where
  flag : (run as).task.cancelled = true
  owner : (run as).task.owner = .idle
  past : ∃ bs cs, as = bs ++ .erase :: cs ∧ (run bs).alive = true ∧
    (∀ i : Nat, (run as).task.waits[i]? = some .checked → (run bs).task.waits[i]? = some .checked) ∧
    ∀ i ∈ (run as).bad, (run bs).task.waits[i]? = some .checked

/-- What holds of an execution. -/
def Inv (as : List Act) : Prop := ((run as).alive = true → (run as).bad = []) ∧ ((run as).alive = false → Dead as)

/-- A step after the end of the peer. -/
theorem dead_step {as : List Act} {a : Act} (h : Dead as) (h1 : (run (as ++ [a])).task.cancelled = true)
    (h2 : (run (as ++ [a])).task.owner = .idle)
    (h3 : ∀ i : Nat, (run (as ++ [a])).task.waits[i]? = some .checked → (run as).task.waits[i]? = some .checked)
    (h4 : ∀ i ∈ (run (as ++ [a])).bad, i ∈ (run as).bad ∨ (run as).task.waits[i]? = some .checked) : Dead (as ++ [a]) := by
  obtain ⟨bs, cs, e, hb, hw, hu⟩ := h.past
  refine ⟨h1, h2, bs, cs ++ [a], by rw [e]; simp, hb, fun i hi => hw i (h3 i hi), fun i hi => ?_⟩
  rcases h4 i hi with h | h
  · exact hu i h
  · exact hw i h

theorem set_checked {ws : List Timer.WPc} {i j : Nat} {v : Timer.WPc} (hv : v ≠ .checked)
    (h : (ws.set i v)[j]? = some .checked) : ws[j]? = some .checked := by
  rw [List.getElem?_set] at h
  split at h
  · split at h
    · cases h; exact absurd rfl hv
    · cases h
  · exact h

/-- After the end: the timer expires, a completion is taken, a task is executed. -/
theorem task_dead {t : Timer.St} (hc : t.cancelled = true) (ho : t.owner = .idle) (a : Timer.Act)
    (ha : (∃ i, a = .expire i) ∨ (∃ i, a = .take i) ∨ ∃ i, a = .exec i) :
    (Timer.step t a).cancelled = true ∧ (Timer.step t a).owner = .idle ∧
    ∀ j : Nat, (Timer.step t a).waits[j]? = some .checked → t.waits[j]? = some .checked := by
  rcases ha with ⟨i, rfl⟩ | ⟨i, rfl⟩ | ⟨i, rfl⟩
  · by_cases h : t.waits[i]? = some .pending
    · rw [show Timer.step t (.expire i) = { t with waits := t.waits.set i (.queued false) } from if_pos h]
      exact ⟨hc, ho, fun j => set_checked (fun h => (by cases h))⟩
    · rw [show Timer.step t (.expire i) = t from if_neg h]
      exact ⟨hc, ho, fun j h => h⟩
  · rw [show Timer.step t (.take i) = Timer.stepTake t i from rfl]
    unfold Timer.stepTake
    split
    · exact ⟨hc, ho, fun j => set_checked (fun h => (by cases h))⟩
    · rw [if_pos hc]
      exact ⟨hc, ho, fun j => set_checked (fun h => (by cases h))⟩
    · exact ⟨hc, ho, fun j h => h⟩
  · by_cases h : t.waits[i]? = some .checked
    · rw [show Timer.step t (.exec i) = { t with waits := t.waits.set i .done, execs := i :: t.execs } from if_pos h]
      exact ⟨hc, ho, fun j => set_checked (fun h => (by cases h))⟩
    · rw [show Timer.step t (.exec i) = t from if_neg h]
      exact ⟨hc, ho, fun j h => h⟩

/-- The peer ends by `erase` only. -/
theorem alive_step (s : St) {a : Act} (h : a ≠ .erase) : (step s a).alive = s.alive := by
  cases a <;> first
    | exact absurd rfl h
    | (unfold step; simp only [stepCall, stepEnter, apply_ite St.alive, ite_self])

theorem alive_dead {s : St} (h : s.alive = false) (a : Act) : (step s a).alive = false := by
  by_cases ha : a = .erase
  · subst ha
    unfold step
    simp only [apply_ite St.alive, h, ite_self]
  · rw [alive_step s ha]; exact h

/-- Nothing but a worker thread in `handle_hb_timeout` uses the peer after its end. -/
theorem bad_step (s : St) {a : Act} (h : ∀ i, a ≠ .enter i) : (step s a).bad = s.bad := by
  cases a <;> first
    | exact absurd rfl (h _)
    | (unfold step; simp only [stepCall, apply_ite St.bad, ite_self])

theorem bad_alive {s : St} (h : s.alive = true) (a : Act) : (step s a).bad = s.bad := by
  by_cases ha : ∃ i, a = .enter i
  · obtain ⟨i, rfl⟩ := ha
    unfold step
    simp only [stepEnter, apply_ite St.bad, h, if_true, ite_self]
  · exact bad_step s fun i e => ha ⟨i, e⟩

theorem inv_step {as : List Act} (h : Inv as) (a : Act) : Inv (as ++ [a]) := by
  have hr := run_snoc as a
  by_cases hl : (run as).alive = true
  · -- the peer exists before the step
    have hb := h.1 hl
    by_cases he : (run (as ++ [a])).alive = true
    · refine ⟨fun _ => ?_, fun h => (by rw [he] at h; cases h)⟩
      rw [hr, bad_alive hl]
      exact hb
    · have ha : a = .erase := by
        rw [hr] at he
        exact Classical.byContradiction fun ha => he (by rw [alive_step _ ha]; exact hl)
      subst ha
      refine ⟨fun h => absurd h he, fun _ => ?_⟩
      rw [hr] at he
      by_cases hc : (run as).lock = some .server ∧ (run as).alive = true ∧ (run as).task.owner = .idle ∧ (run as).task.cancelled = true
      · have e : step (run as) .erase = { run as with alive := false } := if_pos hc
        refine ⟨?_, ?_, as, [], rfl, hl, fun i hi => ?_, fun i hi => ?_⟩
        · rw [hr, e]; exact hc.2.2.2
        · rw [hr, e]; exact hc.2.2.1
        · rw [hr, e] at hi; exact hi
        · rw [hr, e] at hi
          have : i ∈ (run as).bad := hi
          rw [hb] at this; cases this
      · have e : step (run as) .erase = run as := if_neg hc
        rw [e] at he
        exact absurd hl he
  · -- it does not
    rw [Bool.not_eq_true] at hl
    have hd := h.2 hl
    have hk : (run (as ++ [a])).alive = false := by
      rw [hr]
      exact alive_dead hl a
    refine ⟨fun h => (by rw [hk] at h; cases h), fun _ => ?_⟩
    have hsame : (run (as ++ [a])).task = (run as).task → (run (as ++ [a])).bad = (run as).bad → Dead (as ++ [a]) := fun h1 h2 =>
      dead_step hd (by rw [h1]; exact hd.flag) (by rw [h1]; exact hd.owner) (fun i hi => by rw [h1] at hi; exact hi)
        fun i hi => .inl (by rw [h2] at hi; exact hi)
    have hcall : ∀ b, stepCall (run as) b = run as := fun b => by
      unfold stepCall
      rw [if_neg]
      rintro ⟨_, h⟩
      rw [hl] at h
      cases h
    cases a with
    | acquire => exact hsame (by rw [hr]; unfold step; simp only [apply_ite St.task, ite_self]) (by rw [hr]; exact bad_step _ (fun i h => (by cases h)))
    | release => exact hsame (by rw [hr]; unfold step; simp only [apply_ite St.task, ite_self]) (by rw [hr]; exact bad_step _ (fun i h => (by cases h)))
    | schedule => exact hsame (by rw [hr]; exact congrArg St.task (hcall _)) (by rw [hr]; exact congrArg St.bad (hcall _))
    | cancel => exact hsame (by rw [hr]; exact congrArg St.task (hcall _)) (by rw [hr]; exact congrArg St.bad (hcall _))
    | call => exact hsame (by rw [hr]; exact congrArg St.task (hcall _)) (by rw [hr]; exact congrArg St.bad (hcall _))
    | expire i =>
      obtain ⟨h1, h2, h3⟩ := task_dead hd.flag hd.owner (.expire i) (.inl ⟨i, rfl⟩)
      exact dead_step hd (by rw [hr]; exact h1) (by rw [hr]; exact h2) (by rw [hr]; exact h3) (by rw [hr]; exact fun j hj => .inl hj)
    | take i =>
      obtain ⟨h1, h2, h3⟩ := task_dead hd.flag hd.owner (.take i) (.inr (.inl ⟨i, rfl⟩))
      exact dead_step hd (by rw [hr]; exact h1) (by rw [hr]; exact h2) (by rw [hr]; exact h3) (by rw [hr]; exact fun j hj => .inl hj)
    | enter i =>
      obtain ⟨h1, h2, h3⟩ := task_dead hd.flag hd.owner (.exec i) (.inr (.inr ⟨i, rfl⟩))
      by_cases hc : (run as).lock = none ∧ (run as).task.waits[i]? = some .checked
      · have e : step (run as) (.enter i) = { run as with
            task := Timer.step (run as).task (.exec i), lock := some (.worker i), bad := i :: (run as).bad } := by
          show stepEnter _ _ = _
          unfold stepEnter
          rw [if_pos hc]
          simp only [hl, Bool.false_eq_true, if_false]
        refine dead_step hd (by rw [hr, e]; exact h1) (by rw [hr, e]; exact h2) (by rw [hr, e]; exact h3) ?_
        rw [hr, e]
        intro j hj
        rcases List.mem_cons.mp hj with rfl | hj
        · exact .inr hc.2
        · exact .inl hj
      · have e : step (run as) (.enter i) = run as := if_neg hc
        exact hsame (by rw [hr, e]) (by rw [hr, e])
    | leave i => exact hsame (by rw [hr]; unfold step; simp only [apply_ite St.task, ite_self]) (by rw [hr]; exact bad_step _ (fun i h => (by cases h)))
    | erase => exact hsame (by rw [hr]; unfold step; simp only [apply_ite St.task, ite_self]) (by rw [hr]; exact bad_step _ (fun i h => (by cases h)))

theorem inv (as : List Act) : Inv as := by
  have key : ∀ (bs : List Act), Inv bs.reverse := by
    intro bs
    induction bs with
    | nil => exact ⟨fun _ => rfl, fun h => (by cases h)⟩
    | cons b bs ih => rw [List.reverse_cons]; exact inv_step ih b
  have := key as.reverse
  rwa [List.reverse_reverse] at this

/-- A worker thread uses the peer after its end only if it was past the test of the flag, and waited for `lock_`, when the peer ended. -/
theorem late_heartbeat_was_waiting {as : List Act} {i : Nat} (h : i ∈ (run as).bad) :
    ∃ bs cs, as = bs ++ .erase :: cs ∧ (run bs).alive = true ∧ (run bs).task.waits[i]? = some .checked := by
  by_cases hl : (run as).alive = true
  · rw [(inv as).1 hl] at h; cases h
  · rw [Bool.not_eq_true] at hl
    obtain ⟨bs, cs, e, hb, _, hu⟩ := ((inv as).2 hl).past
    exact ⟨bs, cs, e, hb, hu i h⟩

/-- The heartbeat does not use a peer that has ended, if no heartbeat waits for `lock_` when a peer is removed.

Missing: the other case, `late_heartbeat_uses_freed_peer`. -/
theorem removed_peer_not_used_partial (as : List Act)
    (h : ∀ bs cs, as = bs ++ .erase :: cs → .checked ∉ (run bs).task.waits) : (run as).bad = [] := by
  rcases hb : (run as).bad with _ | ⟨i, is⟩
  · rfl
  · obtain ⟨bs, cs, e, _, hi⟩ := late_heartbeat_was_waiting (as := as) (i := i) (by rw [hb]; exact List.mem_cons_self ..)
    exact absurd (List.mem_of_getElem? hi) (h bs cs e)

/-- A peer that gets a heartbeat, is removed while the next one is scheduled, and is not used any more although the timer had expired. -/
def harmless : List Act :=
  [.acquire, .schedule, .call, .call, .release, .expire 0, .take 0, .enter 0, .schedule, .call, .call, .leave 0,
    .expire 1, .acquire, .cancel, .call, .erase, .release, .take 1, .enter 1]

example : (∀ bs cs, harmless = bs ++ .erase :: cs → .checked ∉ (run bs).task.waits) ∧ (run harmless).alive = false ∧
    (run harmless).task.execs = [0] := by
  refine ⟨fun bs cs e => ?_, by decide +kernel, by decide +kernel⟩
  have hl : bs.length < 20 := by
    have := congrArg List.length e
    rw [List.length_append, List.length_cons] at this
    have h20 : harmless.length = 20 := rfl
    omega
  have hb : bs = harmless.take bs.length := by rw [e]; simp
  have key : ∀ k : Fin 20, .checked ∉ (run (harmless.take k.val)).task.waits ∨ harmless[k.val]? ≠ some .erase := by decide +kernel
  rcases key ⟨bs.length, hl⟩ with h | h
  · rw [hb]
    simpa using h
  · exfalso
    apply h
    show harmless[bs.length]? = _
    rw [e]; simp

/-- C107 fails: the timer has expired and a worker thread has passed the test of the flag, when the member is removed. It gets the lock
when the peer has been destroyed, and uses it. -/
theorem late_heartbeat_uses_freed_peer : ∃ as, (run as).bad = [0] ∧ (run as).alive = false :=
  ⟨[.acquire, .schedule, .call, .call, .release, .expire 0, .acquire, .take 0, .cancel, .call, .erase, .release, .enter 0],
    by decide +kernel, by decide +kernel⟩

end Cs.PeerTimer
