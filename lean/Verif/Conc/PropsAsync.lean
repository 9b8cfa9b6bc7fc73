import Verif.Conc.Async

/-!
# Results of asynchronous operations (C50, C51)
-/

namespace Cs.Async
variable {α ε : Type}

/-! ## Specification -/

/-- `set_result` has returned, or ended by the exception of the handler. -/
def St.completed (s : St α ε) : Prop := s.setter = .done ∨ s.setter = .thrown
/-- `when_ready` has returned. -/
def St.registered (s : St α ε) : Prop := s.reg = .done

/-- What `get` has to return or throw. -/
def Outcome.answer (o : Outcome α ε) : Except ε α :=
  match o.err with
  | none => .ok o.value
  | some e => .error e

/-- No step of `set_result` falls between the two accesses of `when_ready`. -/
def Apart (o : Outcome α ε) (s : St α ε) (as : List Act) : Prop :=
  ∀ pre post, as = pre ++ .set :: post → (run o s pre).reg ≠ .check

/-- No thread wakes up without notification. -/
def NoWake (as : List Act) : Prop := ∀ i, Act.wake i ∉ as

/-! ## Executions -/

theorem run_append (o : Outcome α ε) (s : St α ε) (as bs : List Act) : run o s (as ++ bs) = run o (run o s as) bs :=
  List.foldl_append ..

theorem run_snoc (o : Outcome α ε) (s : St α ε) (as : List Act) (a : Act) :
    run o s (as ++ [a]) = step o (run o s as) a := run_append ..

/-- Induction over executions. -/
theorem run_induct {o : Outcome α ε} {s : St α ε} {P : List Act → St α ε → Prop} (h0 : P [] s)
    (h1 : ∀ as a, P as (run o s as) → P (as ++ [a]) (step o (run o s as) a)) : ∀ as, P as (run o s as) := by
  have : ∀ n as, as.length = n → P as (run o s as) := by
    intro n
    induction n with
    | zero => intro as h; cases as with
      | nil => exact h0
      | cons _ _ => cases h
    | succ n ih =>
      intro as h
      rcases as.eq_nil_or_concat with rfl | ⟨l, a, rfl⟩
      · cases h
      · rw [List.concat_eq_append] at h ⊢
        rw [run_snoc]
        exact h1 l a (ih l (by simpa using h))
  exact fun as => this _ as rfl

/-! ## The handler -/

def Setter.holds : Setter → Bool
  | .err | .has | .copy => true
  | _ => false
def Setter.late : Setter → Bool
  | .start | .err | .has => false
  | _ => true
def Setter.past : Setter → Bool
  | .notify | .done | .thrown => true
  | _ => false

/-- Where the threads are and what they have done: `byReg` and `bySet` say that `when_ready` and `set_result` have called the
handler. -/
def flags (reg : Reg) (set : Setter) (handler has locked byReg bySet : Bool) : Bool :=
  locked == set.holds && has == set.late && handler == decide (reg ≠ .start) && (!byReg || decide (reg = .done)) &&
  (!bySet || set.past && decide (reg ≠ .start)) && (!byReg || set.late) && (!decide (set = .call true) || decide (reg ≠ .start)) && (!decide (reg = .call) || has) &&
  (!decide (reg = .done) || byReg || !set.late || decide (set = .copy) || decide (set = .call true) || bySet)

/-- The same for executions in which no step of `set_result` falls between the two accesses of `when_ready`. -/
def flagsApart (reg : Reg) (set : Setter) (byReg bySet : Bool) : Bool :=
  (!decide (reg = .check) || !set.holds) &&
  (!(decide (reg = .check) || decide (reg = .call) || byReg) || !set.late ||
    (!bySet && decide (set ≠ .call true) && decide (set ≠ .copy)))

/-- The values. -/
structure Vals (o : Outcome α ε) (s : St α ε) : Prop where
  val : s.setter ≠ .start → s.result = o.value
  err : s.setter.late = true ∨ s.setter = .has → s.err = o.err
  none : s.setter = .start → s.err = none
  calls : ∀ c ∈ s.calls, c = (o.value, o.err)

/-- The invariant. -/
def Inv (o : Outcome α ε) (apart : Bool) (s : St α ε) : Prop :=
  Vals o s ∧ ∃ byReg bySet : Bool, s.calls.length = byReg.toNat + bySet.toNat ∧
    flags s.reg s.setter s.handler s.has s.locked byReg bySet = true ∧
    (apart = true → flagsApart s.reg s.setter byReg bySet = true)

local macro "pcs" : tactic => `(tactic| (intro set; cases set with
  | call b => cases b <;> decide
  | _ => decide))

theorem flags_late : ∀ set reg a b c d e, flags reg set a b c d e = true → b = set.late ∧ c = set.holds := by
  intro set reg; revert set; cases reg <;> pcs
theorem flags_call : ∀ set a b c d e, flags .call set a b c d e = true → set.late = true ∧ d = false := by pcs
theorem flags_reg0 : ∀ set a b c d e, c = false → flags .start set a b c d e = true → flags .check set true b c d e = true ∧
    (flagsApart .start set d e = true → flagsApart .check set d e = true) := by pcs
theorem flags_reg1 : ∀ set a b c d e, flags .check set a b c d e = true → ∀ r, r = (if b then Reg.call else .done) →
    flags r set a b c d e = true ∧ (flagsApart .check set d e = true → flagsApart r set d e = true) := by
  intro set a b c d e h r hr
  subst hr
  revert set a b c d e
  pcs
theorem flags_reg2 : ∀ set a b c e, flags .call set a b c false e = true → flags .done set a b c true e = true ∧
    (flagsApart .call set false e = true → flagsApart .done set true e = true) := by pcs

theorem inv_reg {o : Outcome α ε} {p : Bool} {s : St α ε} (h : Inv o p s) : Inv o p (stepReg s) := by
  obtain ⟨result, err, has, handler, locked, reg, setter, getter, calls⟩ := s
  obtain ⟨hv, byReg, bySet, h1, h2, h3⟩ := h
  cases reg with
  | start =>
    show Inv o p (if locked then _ else _)
    by_cases hl : locked = true
    · rw [if_pos hl]; exact ⟨hv, byReg, bySet, h1, h2, h3⟩
    · rw [if_neg hl]
      have g := flags_reg0 _ _ _ _ _ _ (by simpa using hl) h2
      exact ⟨⟨hv.1, hv.2, hv.3, hv.4⟩, byReg, bySet, h1, g.1, fun hp => g.2 (h3 hp)⟩
  | check =>
    show Inv o p (if has then _ else _)
    have g := flags_reg1 _ _ _ _ _ _ h2 _ rfl
    by_cases hl : has = true
    · rw [if_pos hl]
      rw [if_pos hl] at g
      exact ⟨⟨hv.1, hv.2, hv.3, hv.4⟩, byReg, bySet, h1, g.1, fun hp => g.2 (h3 hp)⟩
    · rw [if_neg hl]
      rw [if_neg hl] at g
      exact ⟨⟨hv.1, hv.2, hv.3, hv.4⟩, byReg, bySet, h1, g.1, fun hp => g.2 (h3 hp)⟩
  | call =>
    obtain ⟨hl, rfl⟩ := flags_call _ _ _ _ _ _ h2
    have hl : setter.late = true := hl
    have g := flags_reg2 _ _ _ _ _ h2
    refine ⟨⟨hv.1, hv.2, hv.3, ?_⟩, true, bySet, ?_, g.1, fun hp => g.2 (h3 hp)⟩
    · intro c hc
      rcases List.mem_append.1 (show c ∈ calls ++ [(result, err)] from hc) with hc | hc
      · exact hv.4 c hc
      · rw [List.mem_singleton.1 hc]
        have e1 : result = o.value := hv.1 (by intro h; have h : setter = .start := h; subst h; cases hl)
        have e2 : err = o.err := hv.2 (.inl hl)
        rw [e1, e2]
    · show (calls ++ [(result, err)]).length = _
      rw [List.length_append, show calls.length = _ from h1]
      simp; omega
  | done => exact ⟨hv, byReg, bySet, h1, h2, h3⟩

/-- Where a step of `set_result` leads. -/
theorem flags_set : ∀ set t reg a b c d e,
    (set = .start ∧ c = false ∧ t = (true, b, Setter.err, e)) ∨ (set = .err ∧ t = (c, b, .has, e)) ∨
      (set = .has ∧ t = (c, true, .copy, e)) ∨ (set = .copy ∧ t = (false, b, .call a, e)) ∨
      (set = .call false ∧ t = (c, b, .notify, e)) ∨
      (set = .call true ∧ t = (c, b, .notify, true)) ∨ (set = .call true ∧ t = (c, b, .thrown, true)) ∨
      (set = .notify ∧ t = (c, b, .done, e)) →
    flags reg set a b c d e = true → flags reg t.2.2.1 a t.2.1 t.1 d t.2.2.2 = true ∧
      (reg ≠ .check → flagsApart reg set d e = true → flagsApart reg t.2.2.1 d t.2.2.2 = true) := by
  intro set t reg a b c d e h
  rcases h with ⟨rfl, rfl, rfl⟩ | ⟨rfl, rfl⟩ | ⟨rfl, rfl⟩ | ⟨rfl, rfl⟩ | ⟨rfl, rfl⟩ | ⟨rfl, rfl⟩ | ⟨rfl, rfl⟩ | ⟨rfl, rfl⟩
  all_goals (first | revert a b c d e | revert a b d e)
  all_goals cases reg <;> decide

theorem flags_set_fresh : ∀ set reg a b c d e, flags reg set a b c d e = true → set.past = false → e = false := by
  intro set reg; revert set; cases reg <;> pcs

theorem inv_set {o : Outcome α ε} {p : Bool} {s : St α ε} (h : Inv o p s) (hp : p = true → s.reg ≠ .check) :
    Inv o p (stepSet o s) := by
  obtain ⟨result, err, has, handler, locked, reg, setter, getter, calls⟩ := s
  obtain ⟨hv, byReg, bySet, h1, h2, h3⟩ := h
  have hp : p = true → reg ≠ .check := hp
  cases setter with
  | start =>
    show Inv o p (if locked then _ else _)
    by_cases hl : locked = true
    · rw [if_pos hl]; exact ⟨hv, byReg, bySet, h1, h2, h3⟩
    · rw [if_neg hl]
      have g := flags_set _ _ _ _ _ _ _ _ (.inl ⟨rfl, by simpa using hl, rfl⟩) h2
      refine ⟨⟨fun _ => rfl, ?_, ?_, hv.4⟩, byReg, bySet, h1, g.1, fun q => g.2 (hp q) (h3 q)⟩
      · intro h; rcases h with h | h <;> cases h
      · intro h; cases h
  | err =>
    have g := flags_set _ _ _ _ _ _ _ _ (.inr (.inl ⟨rfl, rfl⟩)) h2
    refine ⟨⟨fun _ => hv.1 (by intro h; cases h), fun _ => rfl, ?_, hv.4⟩, byReg, bySet, h1, g.1, fun q => g.2 (hp q) (h3 q)⟩
    intro h; cases h
  | has =>
    have g := flags_set _ _ _ _ _ _ _ _ (.inr (.inr (.inl ⟨rfl, rfl⟩))) h2
    refine ⟨⟨fun _ => hv.1 (by intro h; cases h), fun _ => hv.2 (.inr rfl), ?_, hv.4⟩, byReg, bySet, h1, g.1,
      fun q => g.2 (hp q) (h3 q)⟩
    intro h; cases h
  | copy =>
    have g := flags_set _ _ _ _ _ _ _ _ (.inr (.inr (.inr (.inl ⟨rfl, rfl⟩)))) h2
    refine ⟨⟨fun _ => hv.1 (by intro h; cases h), fun _ => hv.2 (.inl rfl), ?_, hv.4⟩, byReg, bySet, h1, g.1,
      fun q => g.2 (hp q) (h3 q)⟩
    intro h; cases h
  | call b =>
    cases b with
    | false =>
      have g := flags_set _ _ _ _ _ _ _ _ (.inr (.inr (.inr (.inr (.inl ⟨rfl, rfl⟩))))) h2
      refine ⟨⟨fun _ => hv.1 (by intro h; cases h), fun _ => hv.2 (.inl rfl), ?_, hv.4⟩, byReg, bySet, h1, g.1,
        fun q => g.2 (hp q) (h3 q)⟩
      intro h; cases h
    | true =>
      have hb := flags_set_fresh _ _ _ _ _ _ _ h2 rfl
      subst hb
      have hc : ∀ c ∈ calls ++ [(result, err)], c = (o.value, o.err) := by
        intro c hc
        rcases List.mem_append.1 hc with hc | hc
        · exact hv.4 c hc
        · rw [List.mem_singleton.1 hc]
          have e1 : result = o.value := hv.1 (by intro h; cases h)
          have e2 : err = o.err := hv.2 (.inl rfl)
          rw [e1, e2]
      have hn : (calls ++ [(result, err)]).length = byReg.toNat + true.toNat := by
        rw [List.length_append, show calls.length = _ from h1]
        rfl
      show Inv o p (St.mk result err has handler locked reg (if o.throws then .thrown else .notify) getter
        (calls ++ [(result, err)]))
      by_cases ht : o.throws = true
      · rw [if_pos ht]
        have g := flags_set _ _ _ _ _ _ _ _ (.inr (.inr (.inr (.inr (.inr (.inr (.inl ⟨rfl, rfl⟩))))))) h2
        exact ⟨⟨fun _ => hv.1 (by intro h; cases h), fun _ => hv.2 (.inl rfl), (by intro h; cases h), hc⟩, byReg, true, hn,
          g.1, fun q => g.2 (hp q) (h3 q)⟩
      · rw [if_neg ht]
        have g := flags_set _ _ _ _ _ _ _ _ (.inr (.inr (.inr (.inr (.inr (.inl ⟨rfl, rfl⟩)))))) h2
        exact ⟨⟨fun _ => hv.1 (by intro h; cases h), fun _ => hv.2 (.inl rfl), (by intro h; cases h), hc⟩, byReg, true, hn,
          g.1, fun q => g.2 (hp q) (h3 q)⟩
  | notify =>
    have g := flags_set _ _ _ _ _ _ _ _ (.inr (.inr (.inr (.inr (.inr (.inr (.inr ⟨rfl, rfl⟩))))))) h2
    refine ⟨⟨fun _ => hv.1 (by intro h; cases h), fun _ => hv.2 (.inl rfl), ?_, hv.4⟩, byReg, bySet, h1, g.1,
      fun q => g.2 (hp q) (h3 q)⟩
    intro h; cases h
  | done => exact ⟨hv, byReg, bySet, h1, h2, h3⟩
  | thrown => exact ⟨hv, byReg, bySet, h1, h2, h3⟩

/-- Getters change nothing but themselves. -/
def SameBut (s t : St α ε) : Prop := ∃ g, t = { s with getter := g }

theorem stepGet_same (i : Nat) (s : St α ε) : SameBut s (stepGet i s) := by
  unfold stepGet
  repeat' split
  all_goals first | exact ⟨s.getter, rfl⟩ | exact ⟨_, rfl⟩
theorem wake_same (i : Nat) (s : St α ε) : SameBut s (wake i s) := by
  unfold wake
  split
  · exact ⟨_, rfl⟩
  · exact ⟨s.getter, rfl⟩

theorem Inv.same {o : Outcome α ε} {p : Bool} {s t : St α ε} (h : Inv o p s) (hs : SameBut s t) : Inv o p t := by
  obtain ⟨g, rfl⟩ := hs
  obtain ⟨hv, h⟩ := h
  exact ⟨⟨hv.1, hv.2, hv.3, hv.4⟩, h⟩

theorem inv_step {o : Outcome α ε} {p : Bool} {s : St α ε} (h : Inv o p s) (a : Act)
    (ha : p = true → a = .set → s.reg ≠ .check) : Inv o p (step o s a) := by
  cases a with
  | reg => exact inv_reg h
  | set => exact inv_set h fun hp => ha hp rfl
  | get i => exact h.same (stepGet_same i s)
  | wake i => exact h.same (wake_same i s)

theorem inv_empty (o : Outcome α ε) (p : Bool) (v0 : α) : Inv o p (St.empty v0) :=
  ⟨⟨fun h => absurd rfl h, (by intro h; rcases h with h | h <;> cases h), fun _ => rfl, (by intro c h; cases h)⟩, false, false, rfl,
    rfl, fun _ => rfl⟩

theorem inv_run (o : Outcome α ε) (v0 : α) : ∀ as, Inv o false (run o (St.empty v0) as) :=
  run_induct (P := fun _ s => Inv o false s) (inv_empty o false v0) fun as a h => inv_step h a fun h => by cases h

theorem inv_apart (o : Outcome α ε) (v0 : α) : ∀ as, Apart o (St.empty v0) as → Inv o true (run o (St.empty v0) as) :=
  run_induct (P := fun as s => Apart o (St.empty v0) as → Inv o true s) (fun _ => inv_empty o true v0) fun as a ih h => by
    refine inv_step (ih fun pre post e => h pre (post ++ [a]) (by rw [e]; simp)) a fun _ ha => ?_
    subst ha
    exact h as [] rfl

theorem flags_final : ∀ set a b c d e, flags .done set a b c d e = true → set.past = true → d = true ∨ e = true := by pcs
theorem apart_final : ∀ set a b c d e, flags .done set a b c d e = true → set.past = true → flagsApart .done set d e = true →
    d = true → e = false := by pcs

theorem completed_past {s : St α ε} (h : s.completed) : s.setter.past = true := by
  rcases h with h | h <;> rw [h] <;> rfl

/-! ## C50 -/

/-- C50, in all executions: when `when_ready` and `set_result` have returned, the handler has been called once or twice, and it
never gets anything but the result. -/
theorem handler_called (o : Outcome α ε) (v0 : α) (as : List Act) :
    (∀ c ∈ (run o (St.empty v0) as).calls, c = (o.value, o.err)) ∧
    ((run o (St.empty v0) as).registered → (run o (St.empty v0) as).completed →
      (run o (St.empty v0) as).calls.length = 1 ∨ (run o (St.empty v0) as).calls.length = 2) := by
  obtain ⟨hv, d, e, h1, h2, _⟩ := inv_run o v0 as
  refine ⟨hv.4, fun hr hc => ?_⟩
  rw [show _ = Reg.done from hr] at h2
  have := flags_final _ _ _ _ _ _ h2 (completed_past hc)
  rw [h1]
  cases d <;> cases e <;> simp at this ⊢

/-- C50, exactly once: in executions in which no step of `set_result` falls between the two accesses of `when_ready`.

Missing: the other executions, `handler_called_twice`. -/
theorem handler_called_once_partial (o : Outcome α ε) (v0 : α) (as : List Act) (ha : Apart o (St.empty v0) as)
    (hr : (run o (St.empty v0) as).registered) (hc : (run o (St.empty v0) as).completed) :
    (run o (St.empty v0) as).calls = [(o.value, o.err)] := by
  obtain ⟨hv, d, e, h1, h2, h3⟩ := inv_apart o v0 as ha
  have hr' : _ = Reg.done := hr
  rw [hr'] at h2
  have h3 := h3 rfl
  rw [hr'] at h3
  have f1 := flags_final _ _ _ _ _ _ h2 (completed_past hc)
  have f2 := apart_final _ _ _ _ _ _ h2 (completed_past hc) h3
  have hl : (run o (St.empty v0) as).calls.length = 1 := by
    rw [h1]
    cases d <;> cases e <;> simp at f1 f2 ⊢
  have h4 := hv.4
  generalize (run o (St.empty v0) as).calls = cs at hl h4
  match cs, hl with
  | [c], _ => rw [h4 c (List.mem_singleton.2 rfl)]

/-- The hypotheses can be met, with either thread first. -/
example : Apart (α := Nat) (ε := Nat) ⟨7, none, false⟩ (St.empty 0) [.reg, .reg, .set, .set, .set, .set, .set, .set] ∧
    (run (α := Nat) (ε := Nat) ⟨7, none, false⟩ (St.empty 0) [.reg, .reg, .set, .set, .set, .set, .set, .set]).calls = [(7, none)] ∧
    (run (α := Nat) (ε := Nat) ⟨7, none, false⟩ (St.empty 0)
      [.set, .set, .set, .set, .set, .reg, .reg, .reg, .set]).calls = [(7, none)] := by
  refine ⟨fun pre post h => ?_, rfl, rfl⟩
  match pre, h with
  | [], h => cases h
  | [_], h => cases h
  | [_, _], h => cases h; decide
  | [_, _, _], h => cases h; decide
  | [_, _, _, _], h => cases h; decide
  | [_, _, _, _, _], h => cases h; decide
  | [_, _, _, _, _, _], h => cases h; decide
  | [_, _, _, _, _, _, _], h => cases h; decide
  | _ :: _ :: _ :: _ :: _ :: _ :: _ :: _ :: _, h => simp at h

/-- C50 fails: the handler is called twice when the result is set between the two accesses of `when_ready`. -/
theorem handler_called_twice (o : Outcome α ε) (v0 : α) :
    ∃ as, (run o (St.empty v0) as).registered ∧ (run o (St.empty v0) as).completed ∧
      (run o (St.empty v0) as).calls = [(o.value, o.err), (o.value, o.err)] := by
  refine ⟨[.reg, .set, .set, .set, .set, .set, .set, .reg, .reg], ?_⟩
  obtain ⟨v, e, t⟩ := o
  cases t
  · exact ⟨rfl, .inl rfl, rfl⟩
  · exact ⟨rfl, .inr rfl, rfl⟩

/-! ## The threads in `get` -/

theorem answer_set {o : Outcome α ε} {s : St α ε} (h : Inv o false s) (h1 : s.has = true) : answer s = o.answer := by
  obtain ⟨hv, d, e, _, h2, _⟩ := h
  have hl : s.setter.late = true := by rw [← (flags_late _ _ _ _ _ _ _ h2).1]; exact h1
  unfold answer Outcome.answer
  rw [hv.2 (.inl hl), hv.1 (by intro h; rw [h] at hl; cases hl)]
  cases o.err <;> rfl

theorem done_flags {o : Outcome α ε} {s : St α ε} (h : Inv o false s) (h1 : s.setter = .done) :
    s.has = true ∧ s.locked = false := by
  obtain ⟨hv, d, e, _, h2, _⟩ := h
  have := flags_late _ _ _ _ _ _ _ h2
  rw [h1] at this
  exact this

theorem step_notify {o : Outcome α ε} {s : St α ε} {i : Nat} (hn : s.setter = .notify) :
    (step o s .set).getter i = (s.getter i).notified := by
  show (stepSet o s).getter i = _
  unfold stepSet
  rw [hn]

/-- Where a getter gets by an action: it stays, or ... -/
theorem getter_step (o : Outcome α ε) (s : St α ε) (a : Act) (i : Nat) :
    (step o s a).getter i = s.getter i ∨
    (a = .get i ∧ s.getter i = .start ∧ s.locked = false ∧ s.has = true ∧ (step o s a).getter i = .ret (answer s)) ∨
    (a = .get i ∧ s.getter i = .start ∧ s.locked = false ∧ s.has = false ∧ (step o s a).getter i = .wait) ∨
    (a = .get i ∧ s.getter i = .woken ∧ s.locked = false ∧ (step o s a).getter i = .ret (answer s)) ∨
    (a = .wake i ∧ s.getter i = .wait ∧ (step o s a).getter i = .woken) ∨
    (a = .set ∧ s.setter = .notify ∧ s.getter i = .wait ∧ (step o s a).getter i = .woken) := by
  cases a with
  | reg =>
    left
    show (stepReg s).getter i = _
    unfold stepReg
    repeat' split
    all_goals rfl
  | set =>
    by_cases hn : s.setter = .notify
    · rw [step_notify hn]
      rcases hg : s.getter i with _ | _ | _ | r
      · exact .inl rfl
      · exact .inr (.inr (.inr (.inr (.inr ⟨rfl, hn, rfl, rfl⟩))))
      · exact .inl rfl
      · exact .inl rfl
    · left
      show (stepSet o s).getter i = _
      unfold stepSet
      split
      · split <;> rfl
      · rfl
      · rfl
      · rfl
      · split <;> rfl
      · rename_i h; exact absurd h hn
      · rfl
      · rfl
  | get j =>
    by_cases hj : j = i
    · subst hj
      show (stepGet j s).getter j = _ ∨ (_ ∧ _ ∧ _ ∧ _ ∧ (stepGet j s).getter j = _) ∨
        (_ ∧ _ ∧ _ ∧ _ ∧ (stepGet j s).getter j = _) ∨ (_ ∧ _ ∧ _ ∧ (stepGet j s).getter j = _) ∨ _ ∨ _
      unfold stepGet
      rcases hg : s.getter j with _ | _ | _ | r
      · show (if s.locked then s else _ : St α ε).getter j = _ ∨ _
        cases hl : s.locked
        · cases hh : s.has
          · right; right; left
            exact ⟨rfl, rfl, rfl, rfl, if_pos rfl⟩
          · right; left
            exact ⟨rfl, rfl, rfl, rfl, if_pos rfl⟩
        · exact .inl hg
      · exact .inl hg
      · show (if s.locked then s else _ : St α ε).getter j = _ ∨ _
        cases hl : s.locked
        · right; right; right; left
          exact ⟨rfl, rfl, rfl, if_pos rfl⟩
        · exact .inl hg
      · exact .inl hg
    · left
      show (stepGet j s).getter i = _
      unfold stepGet
      repeat' split
      all_goals first | rfl | exact if_neg (fun h => hj h.symm)
  | wake j =>
    by_cases hj : j = i
    · subst hj
      rcases hg : s.getter j with _ | _ | _ | r
      · left; show (wake j s).getter j = _; unfold wake; rw [hg]; exact hg
      · right; right; right; right; left
        refine ⟨rfl, rfl, ?_⟩
        show (wake j s).getter j = _; unfold wake; rw [hg]; exact if_pos rfl
      · left; show (wake j s).getter j = _; unfold wake; rw [hg]; exact hg
      · left; show (wake j s).getter j = _; unfold wake; rw [hg]; exact hg
    · left
      show (wake j s).getter i = _
      unfold wake
      split
      · exact if_neg (fun h => hj h.symm)
      · rfl

theorem setter_done (o : Outcome α ε) (s : St α ε) (a : Act) (h : (step o s a).setter = .done) :
    s.setter = .done ∨ a = .set ∧ s.setter = .notify := by
  cases a with
  | reg =>
    left; rw [← h]
    show s.setter = (stepReg s).setter
    unfold stepReg
    repeat' split
    all_goals rfl
  | get i => obtain ⟨g, hg⟩ := stepGet_same i s; left; rw [← h, show step o s (.get i) = _ from hg]
  | wake i => obtain ⟨g, hg⟩ := wake_same i s; left; rw [← h, show step o s (.wake i) = _ from hg]
  | set =>
    replace h : (stepSet o s).setter = .done := h
    unfold stepSet at h
    split at h
    · rename_i h0
      split at h
      · rw [h] at h0; cases h0
      · cases h
    · cases h
    · cases h
    · cases h
    · split at h
      · replace h : (if o.throws then Setter.thrown else .notify) = .done := h
        split at h <;> cases h
      · cases h
    · rename_i h0; exact .inr ⟨rfl, h0⟩
    · exact .inl h
    · rename_i h0; rw [h0] at h; cases h

theorem no_wait (o : Outcome α ε) (v0 : α) (as : List Act) : (run o (St.empty v0) as).setter = .done →
    ∀ i, (run o (St.empty v0) as).getter i ≠ .wait := by
  revert as
  refine run_induct (P := fun _ s => s.setter = .done → ∀ i, s.getter i ≠ .wait) (fun h => by cases h) fun as a ih h i hw => ?_
  have hi := inv_run o v0 as
  have hi' := inv_run o v0 (as ++ [a])
  rw [run_snoc] at hi'
  rcases getter_step o (run o (St.empty v0) as) a i with g | ⟨_, _, _, _, g⟩ | ⟨e, _, _, hh, g⟩ | ⟨_, _, _, g⟩ | ⟨_, _, g⟩ |
      ⟨_, _, _, g⟩
  · rcases setter_done _ _ _ h with h | ⟨rfl, hn⟩
    · exact ih h i (g.symm.trans hw)
    · have hg : (run o (St.empty v0) as).getter i = .wait := g.symm.trans hw
      rw [step_notify hn, hg] at hw
      cases hw
  · rw [g] at hw; cases hw
  · subst e
    rcases setter_done _ _ _ h with h | ⟨h, _⟩
    · rw [(done_flags hi h).1] at hh; cases hh
    · cases h
  · rw [g] at hw; cases hw
  · rw [g] at hw; cases hw
  · rw [g] at hw; cases hw

/-! ## C51 -/

/-- C51, the first half: when `set_result` has returned, no thread waits in `get` any more; a thread that has not returned from
`get` yet returns with its next step, also one that calls `get` only then. This is so in all executions. -/
theorem get_not_stuck (o : Outcome α ε) (v0 : α) (as : List Act) (h : (run o (St.empty v0) as).setter = .done) (i : Nat) :
    ∃ r, (run o (St.empty v0) (as ++ [.get i])).getter i = .ret r := by
  have hi := inv_run o v0 as
  have hw := no_wait o v0 as h i
  obtain ⟨h1, h2⟩ := done_flags hi h
  rw [run_snoc]
  show ∃ r, (stepGet i _).getter i = _
  unfold stepGet
  rcases hg : (run o (St.empty v0) as).getter i with _ | _ | _ | r
  · show ∃ r, (if (run o (St.empty v0) as).locked then _ else if (run o (St.empty v0) as).has then _ else _ : St α ε).getter i = _
    rw [h2, h1]
    exact ⟨_, if_pos rfl⟩
  · exact absurd hg hw
  · show ∃ r, (if (run o (St.empty v0) as).locked then _ else _ : St α ε).getter i = _
    rw [h2]
    exact ⟨_, if_pos rfl⟩
  · exact ⟨r, hg⟩

/-- C51, the second half: if no thread wakes up without notification, `get` returns (or throws) what has been set.

Missing: executions with such wake-ups, `get_returns_unset`. -/
theorem get_returns_result_partial (o : Outcome α ε) (v0 : α) (as : List Act) (hw : NoWake as) (i : Nat) (r : Except ε α)
    (h : (run o (St.empty v0) as).getter i = .ret r) : r = o.answer := by
  have : NoWake as → ∀ i, ((run o (St.empty v0) as).getter i = .woken → (run o (St.empty v0) as).has = true) ∧
      ∀ r, (run o (St.empty v0) as).getter i = .ret r → r = o.answer := by
    clear h hw r i
    revert as
    refine run_induct (P := fun as s => NoWake as → ∀ i, (s.getter i = .woken → s.has = true) ∧
      ∀ r, s.getter i = .ret r → r = o.answer) (fun _ i => ⟨fun h => (by cases h), fun r h => by cases h⟩) fun as a ih hw i => ?_
    have hi := inv_run o v0 as
    have ih := ih (fun j hj => hw j (List.mem_append_left _ hj)) i
    have hmono : (run o (St.empty v0) as).has = true → (step o (run o (St.empty v0) as) a).has = true := by
      intro h
      cases a with
      | reg => show (stepReg _).has = _; unfold stepReg; repeat' split
               all_goals exact h
      | set => show (stepSet o _).has = _; unfold stepSet; repeat' split
               all_goals first | exact h | rfl
      | get j => obtain ⟨g, hg⟩ := stepGet_same j (run o (St.empty v0) as); rw [show step o _ (.get j) = _ from hg]; exact h
      | wake j => obtain ⟨g, hg⟩ := wake_same j (run o (St.empty v0) as); rw [show step o _ (.wake j) = _ from hg]; exact h
    rcases getter_step o (run o (St.empty v0) as) a i with g | ⟨_, _, _, hh, g⟩ | ⟨e, _, _, hh, g⟩ | ⟨_, hg, _, g⟩ | ⟨e, _, g⟩ |
        ⟨_, hn, _, g⟩
    · rw [g]
      exact ⟨fun h => hmono (ih.1 h), ih.2⟩
    · rw [g]
      exact ⟨fun h => (by cases h), fun r h => by cases h; exact answer_set hi hh⟩
    · rw [g]
      exact ⟨fun h => (by cases h), fun r h => by cases h⟩
    · rw [g]
      exact ⟨fun h => (by cases h), fun r h => by cases h; exact answer_set hi (ih.1 hg)⟩
    · subst e
      exact absurd (List.mem_append_right as (List.mem_singleton.2 rfl)) (hw i)
    · rw [g]
      refine ⟨fun _ => hmono ?_, fun r h => by cases h⟩
      obtain ⟨_, d, e, _, h2, _⟩ := hi
      rw [(flags_late _ _ _ _ _ _ _ h2).1, hn]
      rfl
  exact (this hw i).2 r h

/-- The hypotheses can be met by a thread that has waited. -/
example : NoWake [.get 3, .set, .set, .set, .set, .set, .set, .get 3] ∧
    (run (α := Nat) (ε := Nat) ⟨7, none, false⟩ (St.empty 0) [.get 3, .set, .set, .set, .set, .set, .set]).setter = .done ∧
    (run (α := Nat) (ε := Nat) ⟨7, none, false⟩ (St.empty 0) [.get 3]).getter 3 = .wait ∧
    (run (α := Nat) (ε := Nat) ⟨7, none, false⟩ (St.empty 0) [.get 3, .set, .set, .set, .set, .set, .set, .get 3]).getter 3 =
      .ret (.ok 7) := by
  refine ⟨fun i h => ?_, rfl, rfl, rfl⟩
  simp at h

/-- C51 fails when a waiting thread wakes up without notification: `get` returns a value although nothing has been set. -/
theorem get_returns_unset (o : Outcome α ε) (v0 : α) :
    ∃ as, (run o (St.empty v0) as).setter = .start ∧ (run o (St.empty v0) as).getter 0 = .ret (.ok v0) :=
  ⟨[.get 0, .wake 0, .get 0], rfl, rfl⟩

/-- C51 fails when the handler throws: `set_result` ends without waking the threads in `get`, and they wait whatever happens. -/
theorem throwing_handler_blocks_get (o : Outcome α ε) (v0 : α) (ht : o.throws = true) :
    ∃ as, (run o (St.empty v0) as).completed ∧ ∀ bs, NoWake bs → (run o (St.empty v0) (as ++ bs)).getter 0 = .wait := by
  refine ⟨[.get 0, .reg, .reg, .set, .set, .set, .set, .set], ?_, fun bs => ?_⟩
  · obtain ⟨v, e, t⟩ := o
    cases ht
    exact .inr rfl
  · have hs : (run o (St.empty v0) [.get 0, .reg, .reg, .set, .set, .set, .set, .set]).setter = .thrown ∧
        (run o (St.empty v0) [.get 0, .reg, .reg, .set, .set, .set, .set, .set]).getter 0 = .wait := by
      obtain ⟨v, e, t⟩ := o
      cases ht
      exact ⟨rfl, rfl⟩
    rw [run_append]
    generalize run o (St.empty v0) [.get 0, .reg, .reg, .set, .set, .set, .set, .set] = t at hs
    intro hw
    have : ∀ bs, NoWake bs → (run o t bs).setter = .thrown ∧ (run o t bs).getter 0 = .wait := by
      refine run_induct (P := fun bs s => NoWake bs → s.setter = .thrown ∧ s.getter 0 = .wait) (fun _ => hs) fun bs a ih hw => ?_
      obtain ⟨h1, h2⟩ := ih fun j hj => hw j (List.mem_append_left _ hj)
      refine ⟨?_, ?_⟩
      · cases a with
        | reg => show (stepReg _).setter = _; unfold stepReg; repeat' split
                 all_goals exact h1
        | set => show (stepSet o _).setter = _; unfold stepSet; rw [h1]; exact h1
        | get j => obtain ⟨g, hg⟩ := stepGet_same j (run o t bs); rw [show step o _ (.get j) = _ from hg]; exact h1
        | wake j => obtain ⟨g, hg⟩ := wake_same j (run o t bs); rw [show step o _ (.wake j) = _ from hg]; exact h1
      · rcases getter_step o (run o t bs) a 0 with g | ⟨_, hg, _⟩ | ⟨_, hg, _⟩ | ⟨_, hg, _⟩ | ⟨e, _, _⟩ | ⟨_, hg, _⟩
        · exact g.trans h2
        · rw [h2] at hg; cases hg
        · rw [h2] at hg; cases hg
        · rw [h2] at hg; cases hg
        · subst e
          exact absurd (List.mem_append_right bs (List.mem_singleton.2 rfl)) (hw 0)
        · rw [h1] at hg; cases hg
    exact (this bs hw).2

/-- C51 fails for an object made from a handler, line 39: `get` returns a value at once, although nothing has been set. -/
theorem get_from_handler_unset (o : Outcome α ε) (v0 : α) :
    (run o (St.ofHandler v0) [.get 0]).getter 0 = .ret (.ok v0) ∧ (run o (St.ofHandler v0) [.get 0]).setter = .start :=
  ⟨rfl, rfl⟩

end Cs.Async
