import Verif.Conc.Logger

/-!
# What reaches the log file (C92)

The lines that a logger is to keep are in the file in the order in which they were logged, none twice, none left out: the file is
always a beginning of that list. After `stop` the file gets everything that was logged before. But between the first flush, one
second after the start, and the next one there are 1000 hours; and `stop` may return before the lines are written.
-/

namespace Cs.Logger

/-! ## Specification -/

/-- The lines of an execution that a logger with this level is to keep: those of its level and above, in the order of the calls. -/
def logged (level : Lv) : List Act → List Line
  | [] => []
  | .log l :: as => (match level, l.lv with
    | .debug, _ => [l]
    | .info, .debug => []
    | .info, _ => [l]
    | .warn, .debug => []
    | .warn, .info => []
    | .warn, _ => [l]
    | .err, .err => [l]
    | .err, _ => []) ++ logged level as
  | _ :: as => logged level as

/-! ## Proofs -/

theorem logged_append (level : Lv) : ∀ as bs, logged level (as ++ bs) = logged level as ++ logged level bs
  | [], _ => rfl
  | a :: as, bs => by
    cases a <;> simp only [List.cons_append, logged, logged_append level as bs, List.append_assoc]

theorem logged_log (level : Lv) (l : Line) : logged level [.log l] = if keeps level l.lv then [l] else [] := by
  obtain ⟨lv, t⟩ := l
  cases level <;> cases lv <;> rfl

/-- A call that has the mutex. -/
def Hc.holds : Hc → Bool
  | .swap | .write _ => true
  | _ => false

/-- A call that has not yet taken the lines. -/
def Hc.before : Hc → Bool
  | .start | .rearm | .lock | .swap => true
  | _ => false

/-- The lines that a call has taken and not yet written. -/
def Hc.backup : Hc → List Line
  | .write b => b
  | _ => []

/-- The lines that the holder of the mutex has taken and not yet written. -/
def St.held (s : St) : List Line := match s.owner with
  | some k => ((s.hs[k]?).map Hc.backup).getD []
  | none => []

/-- The lines on their way, and who has the mutex. -/
structure Inv (level : Lv) (as : List Act) (s : St) : Prop where
  lvl : s.level = level
  lines : s.file ++ s.held ++ s.buf = logged level as
  mutex : ∀ k h, s.hs[k]? = some h → (h.holds = true ↔ s.owner = some k)
  owner : ∀ k, s.owner = some k → k < s.hs.length

theorem Inv.init (level : Lv) : Inv level [] (St.init level) := ⟨rfl, rfl, fun _ _ h => (by cases h), fun _ h => (by cases h)⟩

theorem get_set {l : List Hc} {k j : Nat} {p h : Hc} (hj : (l.set k p)[j]? = some h) :
    (j = k ∧ h = p) ∨ (j ≠ k ∧ l[j]? = some h) := by
  rw [List.getElem?_set] at hj
  by_cases hk : k = j
  · rw [if_pos hk] at hj
    split at hj
    · cases hj; exact .inl ⟨hk.symm, rfl⟩
    · cases hj
  · rw [if_neg hk] at hj
    exact .inr ⟨fun e => hk e.symm, hj⟩

theorem held_none {s : St} (h : s.owner = none) : s.held = [] := by unfold St.held; rw [h]
theorem held_some {s : St} {k : Nat} {p : Hc} (h : s.owner = some k) (hp : s.hs[k]? = some p) :
    s.held = p.backup := by
  unfold St.held
  rw [h]
  simp only
  rw [hp]
  rfl

theorem get_new {l : List Hc} {p h : Hc} {j : Nat} (hj : (l ++ [p])[j]? = some h) : l[j]? = some h ∨ (j = l.length ∧ h = p) := by
  rcases Nat.lt_or_ge j l.length with hl | hl
  · rw [List.getElem?_append_left hl] at hj; exact .inl hj
  · rw [List.getElem?_append_right hl] at hj
    rcases hd : j - l.length with _ | m
    · rw [hd] at hj
      cases hj
      exact .inr ⟨by omega, rfl⟩
    · rw [hd] at hj; cases hj

theorem lt_of_get {l : List Hc} {j : Nat} {h : Hc} (hj : l[j]? = some h) : j < l.length := by
  rcases Nat.lt_or_ge j l.length with hl | hl
  · exact hl
  · rw [List.getElem?_eq_none hl] at hj; cases hj

/-- A new call changes nothing. -/
theorem Inv.born {level : Lv} {as : List Act} {s s' : St} (h : Inv level as s) (h1 : s'.level = s.level) (h2 : s'.file = s.file)
    (h3 : s'.buf = s.buf) (h4 : s'.hs = s.hs ++ [.start]) (h5 : s'.owner = s.owner) : Inv level as s' ∧ s'.held = s.held := by
  have hh : s'.held = s.held := by
    rcases ho : s.owner with _ | k
    · rw [held_none ho, held_none (h5.trans ho)]
    · have hk := h.owner k ho
      obtain ⟨p, hp⟩ : ∃ p, s.hs[k]? = some p := ⟨s.hs[k], List.getElem?_eq_getElem hk⟩
      rw [held_some ho hp, held_some (h5.trans ho) (by rw [h4, List.getElem?_append_left hk]; exact hp)]
  refine ⟨⟨h1.trans h.lvl, by rw [h2, hh, h3]; exact h.lines, fun k p hp => ?_, fun k hk => ?_⟩, hh⟩
  · rw [h4] at hp
    rw [h5]
    rcases get_new hp with hp | ⟨rfl, rfl⟩
    · exact h.mutex k p hp
    · constructor
      · intro hf; cases hf
      · intro ho; exact absurd (h.owner _ ho) (Nat.lt_irrefl _)
  · rw [h5] at hk
    rw [h4, List.length_append]
    exact Nat.lt_of_lt_of_le (h.owner k hk) (Nat.le_add_right _ _)

theorem Inv.abort {level : Lv} {as : List Act} {s : St} (h : Inv level as s) : Inv level as s.abort ∧ s.abort.held = s.held := by
  unfold St.abort
  split
  · exact h.born rfl rfl rfl rfl rfl
  · exact ⟨h, rfl⟩

/-- Fields that play no role are changed. -/
theorem Inv.of {level : Lv} {as : List Act} {s s' : St} (h : Inv level as s) (h1 : s'.level = s.level) (h2 : s'.file = s.file)
    (h3 : s'.buf = s.buf) (h4 : s'.hs = s.hs) (h5 : s'.owner = s.owner) : Inv level as s' ∧ s'.held = s.held := by
  have hh : s'.held = s.held := by unfold St.held; rw [h5, h4]
  exact ⟨⟨h1.trans h.lvl, by rw [h2, hh, h3]; exact h.lines, by rw [h4, h5]; exact h.mutex, by rw [h4, h5]; exact h.owner⟩, hh⟩

/-- Call `k`, which neither has nor gets the mutex, goes on. -/
theorem Inv.move {level : Lv} {as : List Act} {s s' : St} {k : Nat} {p q : Hc} (h : Inv level as s) (hp : s.hs[k]? = some p)
    (hp' : p.holds = false) (hq : q.holds = false) (h1 : s'.level = s.level) (h2 : s'.file = s.file)
    (h3 : s'.buf = s.buf) (h4 : s'.hs = s.hs.set k q) (h5 : s'.owner = s.owner) : Inv level as s' ∧ s'.held = s.held := by
  have hk : s.owner ≠ some k := fun ho => by
    have := (h.mutex k p hp).2 ho
    rw [hp'] at this; cases this
  have hh : s'.held = s.held := by
    rcases ho : s.owner with _ | j
    · rw [held_none ho, held_none (h5.trans ho)]
    · have hj := h.owner j ho
      have hjk : k ≠ j := fun e => hk (e ▸ ho)
      obtain ⟨p, hp⟩ : ∃ p, s.hs[j]? = some p := ⟨s.hs[j], List.getElem?_eq_getElem hj⟩
      rw [held_some ho hp, held_some (h5.trans ho) (by rw [h4, List.getElem?_set, if_neg hjk]; exact hp)]
  refine ⟨⟨h1.trans h.lvl, by rw [h2, hh, h3]; exact h.lines, fun j r hr => ?_, fun j hj => ?_⟩, hh⟩
  · rw [h4] at hr
    rw [h5]
    rcases get_set hr with ⟨rfl, rfl⟩ | ⟨_, hr⟩
    · rw [hq]
      exact ⟨fun h => (by cases h), fun ho => absurd ho hk⟩
    · exact h.mutex j r hr
  · rw [h4, List.length_set, ]
    rw [h5] at hj
    exact h.owner j hj

/-- Lines on their way or written, which never get less. -/
def St.out (s : St) : Nat := s.file.length + s.held.length

/-- The call that has the mutex, or takes it, goes on. -/
theorem Inv.inside {level : Lv} {as : List Act} {s s' : St} {k : Nat} {q : Hc} (h : Inv level as s)
    (hk : k < s.hs.length) (ho : s.owner = none ∨ s.owner = some k) (h1 : s'.level = s.level)
    (h4 : s'.hs = s.hs.set k q) (h5 : s'.owner = if q.holds then some k else none)
    (hl : s'.file ++ q.backup ++ s'.buf = s.file ++ s.held ++ s.buf) :
    Inv level as s' ∧ s'.held = q.backup := by
  have hget : s'.hs[k]? = some q := by rw [h4, List.getElem?_set, if_pos rfl, if_pos hk]
  have hh : s'.held = q.backup := by
    by_cases hq : q.holds = true
    · rw [if_pos hq] at h5
      exact held_some h5 hget
    · rw [if_neg hq] at h5
      rw [held_none h5]
      cases q <;> first | rfl | exact absurd rfl hq
  refine ⟨⟨h1.trans h.lvl, by rw [hh, hl]; exact h.lines, fun j r hr => ?_, fun j hj => ?_⟩, hh⟩
  · rw [h4] at hr
    rcases get_set hr with ⟨rfl, rfl⟩ | ⟨hne, hr⟩
    · rw [h5]
      by_cases hq : r.holds = true
      · rw [if_pos hq]; exact ⟨fun _ => rfl, fun _ => hq⟩
      · rw [if_neg hq]; exact ⟨fun h => absurd h hq, fun h => (by cases h)⟩
    · have hn : ¬ (s.owner = some j) := fun e => by
        rcases ho with ho | ho
        · rw [ho] at e; cases e
        · rw [ho] at e; injection e with e; exact hne e.symm
      have hn' : ¬ (s'.owner = some j) := fun e => by
        rw [h5] at e
        split at e
        · injection e with e; exact hne e.symm
        · cases e
      exact ⟨fun hf => absurd ((h.mutex j r hr).1 hf) hn, fun e => absurd e hn'⟩
  · rw [h4, List.length_set]
    rw [h5] at hj
    split at hj
    · injection hj with hj; exact hj ▸ hk
    · cases hj

/-- One step of a call of `flush_all_loggers`: nothing is lost, and if a call takes the lines it takes all. -/
theorem Inv.flush {level : Lv} {as : List Act} {s : St} (h : Inv level as s) (k : Nat) : Inv level as (s.flush k) ∧
    s.out ≤ (s.flush k).out := by
  unfold St.flush
  split
  · next hk =>
    obtain ⟨a, b⟩ := h.move (s' := s.goto k (if s.go then .rearm else .lock)) (q := if s.go then .rearm else .lock) hk rfl
      (by split <;> rfl) rfl rfl rfl rfl rfl
    exact ⟨a, by unfold St.out; rw [b]; exact Nat.le_refl _⟩
  · next hk =>
    obtain ⟨a, b⟩ := h.abort
    have hf : s.abort.file = s.file := by unfold St.abort; split <;> rfl
    have hk' : s.abort.hs[k]? = some .rearm := by
      unfold St.abort
      split
      · show (s.hs ++ [.start])[k]? = _
        rw [List.getElem?_append_left (lt_of_get hk)]; exact hk
      · exact hk
    obtain ⟨c, d⟩ := a.move (s' := { s.abort.goto k .lock with due := some (s.clock + period) }) (q := .lock) hk' rfl rfl rfl rfl
      rfl rfl rfl
    refine ⟨c, ?_⟩
    unfold St.out
    rw [d, b]
    show _ ≤ s.abort.file.length + _
    rw [hf]
    exact Nat.le_refl _
  · next hk =>
    split
    · next ho =>
      obtain ⟨a, b⟩ := h.inside (s' := { s.goto k .swap with owner := some k }) (q := .swap) (lt_of_get hk) (.inl ho) rfl rfl rfl
        (by rw [held_none ho]; rfl)
      exact ⟨a, by unfold St.out; rw [b, held_none ho]; exact Nat.le_refl _⟩
    · exact ⟨h, Nat.le_refl _⟩
  · next hk =>
    have ho := (h.mutex k _ hk).1 rfl
    have hd : s.held = [] := held_some ho hk
    obtain ⟨a, b⟩ := h.inside (s' := { s.goto k (.write s.buf) with buf := [] }) (q := .write s.buf) (lt_of_get hk) (.inr ho) rfl rfl ho
      (by rw [hd]; show s.file ++ s.buf ++ [] = s.file ++ [] ++ s.buf; rw [List.append_nil, List.append_nil])
    exact ⟨a, by unfold St.out; rw [b, hd]; exact Nat.le_add_right _ _⟩
  · next l ls hk =>
    have ho := (h.mutex k _ hk).1 rfl
    have hd : s.held = l :: ls := held_some ho hk
    obtain ⟨a, b⟩ := h.inside (s' := { s.goto k (.write ls) with file := s.file ++ [l] }) (q := .write ls) (lt_of_get hk) (.inr ho) rfl rfl ho
      (by rw [hd]; show s.file ++ [l] ++ ls ++ s.buf = s.file ++ (l :: ls) ++ s.buf; rw [List.append_assoc s.file [l] ls]; rfl)
    refine ⟨a, ?_⟩
    unfold St.out
    rw [b, hd]
    show _ ≤ (s.file ++ [l]).length + ls.length
    rw [List.length_append, List.length_cons, List.length_singleton]
    omega
  · next hk =>
    have ho := (h.mutex k _ hk).1 rfl
    have hd : s.held = [] := held_some ho hk
    obtain ⟨a, b⟩ := h.inside (s' := { s.goto k .test with owner := none }) (q := .test) (lt_of_get hk) (.inr ho) rfl rfl rfl
      (by rw [hd]; rfl)
    exact ⟨a, by unfold St.out; rw [b, hd]; exact Nat.le_refl _⟩
  · next hk =>
    obtain ⟨a, b⟩ := h.move (s' := { s.goto k .done with stop := if s.stopping ∧ s.stop = .waiting then .returned else s.stop })
      (q := .done) hk rfl rfl rfl rfl rfl rfl rfl
    exact ⟨a, by unfold St.out; rw [b]; exact Nat.le_refl _⟩
  · exact ⟨h, Nat.le_refl _⟩
  · exact ⟨h, Nat.le_refl _⟩

theorem Inv.step {level : Lv} {as : List Act} {s : St} (h : Inv level as s) (a : Act) : Inv level (as ++ [a]) (s.step a) ∧
    s.out ≤ (s.step a).out := by
  have plain : ∀ {s'}, (∀ l, a ≠ .log l) → Inv level as s' → Inv level (as ++ [a]) s' := by
    intro s' hn hi
    have : logged level (as ++ [a]) = logged level as := by
      rw [logged_append]
      cases a <;> first | exact List.append_nil _ | exact absurd rfl (hn _)
    exact ⟨hi.lvl, this ▸ hi.lines, hi.mutex, hi.owner⟩
  cases a with
  | log l =>
    show Inv level _ (s.log l) ∧ s.out ≤ (s.log l).out
    unfold St.log
    have hl : logged level (as ++ [.log l]) = logged level as ++ if keeps s.level l.lv then [l] else [] := by
      rw [logged_append, logged_log, h.lvl]
    split
    · next hk =>
      rw [if_pos hk] at hl
      refine ⟨⟨h.lvl, ?_, h.mutex, h.owner⟩, Nat.le_refl _⟩
      rw [hl, ← h.lines]
      show s.file ++ s.held ++ (s.buf ++ [l]) = _
      rw [List.append_assoc (s.file ++ s.held)]
    · next hk =>
      rw [if_neg hk, List.append_nil] at hl
      exact ⟨⟨h.lvl, hl ▸ h.lines, h.mutex, h.owner⟩, Nat.le_refl _⟩
  | tick n =>
    obtain ⟨a, b⟩ := h.of (s' := { s with clock := s.clock + n }) rfl rfl rfl rfl rfl
    exact ⟨plain (fun _ h => (by cases h)) a, Nat.le_refl _⟩
  | expire =>
    show Inv level _ s.expire ∧ s.out ≤ s.expire.out
    unfold St.expire
    split
    · split
      · obtain ⟨a, b⟩ := h.born (s' := { s with due := none, hs := s.hs ++ [.start] }) rfl rfl rfl rfl rfl
        exact ⟨plain (fun _ h => (by cases h)) a, by unfold St.out; rw [b]; exact Nat.le_refl _⟩
      · exact ⟨plain (fun _ h => (by cases h)) h, Nat.le_refl _⟩
    · exact ⟨plain (fun _ h => (by cases h)) h, Nat.le_refl _⟩
  | flush k => exact ⟨plain (fun _ h => (by cases h)) (h.flush k).1, (h.flush k).2⟩
  | stop =>
    refine ⟨plain (fun _ h => (by cases h)) ?_, ?_⟩
    · show Inv level as s.stopStep
      unfold St.stopStep
      split
      · exact (h.of (s' := { s with go := false, stop := .set }) rfl rfl rfl rfl rfl).1
      · exact (h.of (s' := { s with stopping := true, stop := .cancel }) rfl rfl rfl rfl rfl).1
      · exact (h.abort.1.of (s' := { s.abort with stop := .wait }) rfl rfl rfl rfl rfl).1
      · exact (h.of (s' := { s with stop := .waiting }) rfl rfl rfl rfl rfl).1
      · exact h
      · exact h
    · show s.out ≤ s.stopStep.out
      unfold St.stopStep
      have hf : s.abort.file = s.file := by unfold St.abort; split <;> rfl
      split <;> first | exact Nat.le_refl _ | skip
      show s.file.length + s.held.length ≤ s.abort.file.length + s.abort.held.length
      rw [h.abort.2, hf]
      exact Nat.le_refl _

theorem run_append (s : St) (as bs : List Act) : s.run (as ++ bs) = (s.run as).run bs := List.foldl_append

theorem Inv.run {level : Lv} : ∀ {bs as : List Act} {s : St}, Inv level as s → Inv level (as ++ bs) (s.run bs) ∧ s.out ≤ (s.run bs).out
  | [], as, s, h => by rw [List.append_nil]; exact ⟨h, Nat.le_refl _⟩
  | b :: bs, as, s, h => by
    obtain ⟨h1, h2⟩ := h.step b
    obtain ⟨h3, h4⟩ := Inv.run (bs := bs) h1
    rw [List.append_assoc] at h3
    exact ⟨h3, Nat.le_trans h2 h4⟩

/-! ## C92 -/

/-- C92, order: in every execution the file is a beginning of the list of lines that were to be kept. None is lost on the way to a
later one, none is there twice, none comes before an earlier one, none has a lower level. -/
theorem file_is_beginning (level : Lv) (as : List Act) : ((St.init level).run as).file <+: logged level as := by
  have h := (Inv.run (bs := as) (Inv.init level)).1
  rw [List.nil_append] at h
  exact ⟨((St.init level).run as).held ++ ((St.init level).run as).buf, by rw [← List.append_assoc]; exact h.lines⟩

/-- A wait is pending, or a call will start one: while the service runs. -/
def Alive (s : St) : Prop := s.due.isSome = true ∨ ∃ k : Nat, s.hs[k]? = some .start ∨ s.hs[k]? = some .rearm

/-- A call that will take the lines. -/
def Coming (s : St) : Prop := ∃ (k : Nat) (h : Hc), s.hs[k]? = some h ∧ h.before = true

theorem abort_alive {s : St} (h : s.due.isSome = true) : ∃ k : Nat, s.abort.hs[k]? = some .start := by
  unfold St.abort
  split
  · exact ⟨s.hs.length, by show (s.hs ++ [.start])[s.hs.length]? = _; rw [List.getElem?_append_right (Nat.le_refl _), Nat.sub_self]; rfl⟩
  · next hd => rw [hd] at h; cases h

theorem get_keep {l : List Hc} {j : Nat} {h p : Hc} (hj : l[j]? = some h) : (l ++ [p])[j]? = some h := by
  rw [List.getElem?_append_left (lt_of_get hj)]; exact hj

theorem set_get {l : List Hc} {k : Nat} {p q : Hc} (h : l[k]? = some p) : (l.set k q)[k]? = some q := by
  rw [List.getElem?_set, if_pos rfl, if_pos (lt_of_get h)]

theorem set_keep {l : List Hc} {j k : Nat} {p q : Hc} (h : l[j]? = some p) (hne : k ≠ j) : (l.set k q)[j]? = some p := by
  rw [List.getElem?_set, if_neg hne]; exact h

theorem Alive.keep {s s' : St} (h : Alive s) (h1 : s'.due = s.due) (h2 : s'.hs = s.hs) : Alive s' := by
  unfold Alive; rw [h1, h2]; exact h

/-- Until `stop` is called. -/
theorem Alive.step {s : St} (hg : s.go = true) (hi : s.stop = .idle) (h : Alive s) {a : Act} (ha : a ≠ .stop) :
    Alive (s.step a) ∧ (s.step a).go = true ∧ (s.step a).stop = .idle := by
  cases a with
  | log l =>
    show Alive (s.log l) ∧ _
    refine ⟨?_, ?_⟩
    · unfold St.log; split <;> exact h.keep rfl rfl
    · show (s.log l).go = true ∧ (s.log l).stop = .idle
      unfold St.log; split <;> exact ⟨hg, hi⟩
  | tick n => exact ⟨h.keep rfl rfl, hg, hi⟩
  | expire =>
    show Alive s.expire ∧ s.expire.go = true ∧ s.expire.stop = .idle
    unfold St.expire
    split
    · split
      · refine ⟨.inr ⟨s.hs.length, .inl ?_⟩, hg, hi⟩
        show (s.hs ++ [.start])[s.hs.length]? = _
        rw [List.getElem?_append_right (Nat.le_refl _), Nat.sub_self]; rfl
      · exact ⟨h, hg, hi⟩
    · exact ⟨h, hg, hi⟩
  | flush k =>
    show Alive (s.flush k) ∧ (s.flush k).go = true ∧ (s.flush k).stop = .idle
    have other : ∀ {p q : Hc} {s' : St}, s.hs[k]? = some p → p ≠ .start → p ≠ .rearm → s'.due = s.due → s'.hs = s.hs.set k q → Alive s' := by
      intro p q s' hp n1 n2 h1 h2
      rcases h with h | ⟨j, h⟩
      · exact .inl (h1 ▸ h)
      · have hne : k ≠ j := by
          rintro rfl
          rcases h with h | h <;> rw [hp] at h <;> injection h with h
          · exact n1 h
          · exact n2 h
        exact .inr ⟨j, h.imp (fun h => by rw [h2]; exact set_keep h hne) fun h => by rw [h2]; exact set_keep h hne⟩
    unfold St.flush
    split
    · next hk =>
      rw [if_pos hg]
      exact ⟨.inr ⟨k, .inr (set_get hk)⟩, hg, hi⟩
    · refine ⟨.inl rfl, ?_, ?_⟩
      · show s.abort.go = true
        unfold St.abort; split <;> exact hg
      · show s.abort.stop = .idle
        unfold St.abort; split <;> exact hi
    · next hk =>
      split
      · exact ⟨other hk (fun e => nomatch e) (fun e => nomatch e) rfl rfl, hg, hi⟩
      · exact ⟨h, hg, hi⟩
    · next hk => exact ⟨other hk (fun e => nomatch e) (fun e => nomatch e) rfl rfl, hg, hi⟩
    · next hk => exact ⟨other hk (fun e => nomatch e) (fun e => nomatch e) rfl rfl, hg, hi⟩
    · next hk => exact ⟨other hk (fun e => nomatch e) (fun e => nomatch e) rfl rfl, hg, hi⟩
    · next hk =>
      refine ⟨other hk (fun e => nomatch e) (fun e => nomatch e) rfl rfl, hg, ?_⟩
      show (if s.stopping ∧ s.stop = .waiting then Sc.returned else s.stop) = .idle
      rw [if_neg (by rw [hi]; rintro ⟨_, e⟩; cases e)]
      exact hi
    · exact ⟨h, hg, hi⟩
    · exact ⟨h, hg, hi⟩
  | stop => exact absurd rfl ha

theorem Alive.run {s : St} : ∀ {as : List Act}, s.go = true → s.stop = .idle → Alive s → .stop ∉ as →
    Alive (s.run as) ∧ (s.run as).go = true ∧ (s.run as).stop = .idle
  | [], hg, hi, h, _ => ⟨h, hg, hi⟩
  | a :: as, hg, hi, h, hn => by
    obtain ⟨h1, h2, h3⟩ := h.step hg hi (a := a) fun e => hn (e ▸ List.mem_cons_self ..)
    exact Alive.run (as := as) h2 h3 h1 fun e => hn (List.mem_cons_of_mem _ e)

/-- After `stop` was called: the first `n` lines are out, or a call will take them, or the wait will be aborted. -/
def Due (n : Nat) (s : St) : Prop :=
  s.go = false ∧ s.stop ≠ .idle ∧ (n ≤ s.out ∨ Coming s ∨ ((s.stop = .set ∨ s.stop = .cancel) ∧ s.due.isSome = true))

theorem Coming.keep {s s' : St} (h : Coming s) (h2 : s'.hs = s.hs) : Coming s' := by unfold Coming; rw [h2]; exact h

theorem abort_hs (s : St) : s.abort.hs = s.hs ∨ s.abort.hs = s.hs ++ [.start] := by
  unfold St.abort
  split
  · exact .inr rfl
  · exact .inl rfl

theorem Coming.abort {s s' : St} (h : Coming s) (h2 : s'.hs = s.abort.hs) : Coming s' := by
  obtain ⟨k, p, h1, h3⟩ := h
  refine ⟨k, p, ?_, h3⟩
  rw [h2]
  rcases abort_hs s with e | e <;> rw [e]
  · exact h1
  · exact get_keep h1

theorem Due.step {level : Lv} {as : List Act} {s : St} {n : Nat} (hi : Inv level as s) (hl : n ≤ (logged level as).length)
    (h : Due n s) (a : Act) : Due n (s.step a) := by
  obtain ⟨hg, hs, h⟩ := h
  have hout := (hi.step a).2
  cases a with
  | log l =>
    show Due n (s.log l)
    have e : (s.log l).go = s.go ∧ (s.log l).stop = s.stop ∧ (s.log l).hs = s.hs ∧ (s.log l).due = s.due := by
      unfold St.log; split <;> exact ⟨rfl, rfl, rfl, rfl⟩
    obtain ⟨e1, e2, e3, e4⟩ := e
    refine ⟨e1 ▸ hg, e2 ▸ hs, ?_⟩
    rcases h with h | h | h
    · exact .inl (Nat.le_trans h hout)
    · exact .inr (.inl (h.keep e3))
    · exact .inr (.inr (by rw [e2, e4]; exact h))
  | tick m =>
    refine ⟨hg, hs, ?_⟩
    rcases h with h | h | h
    · exact .inl (Nat.le_trans h hout)
    · exact .inr (.inl (h.keep rfl))
    · exact .inr (.inr h)
  | expire =>
    have hout : s.out ≤ s.expire.out := hout
    show Due n s.expire
    unfold St.expire at hout ⊢
    split
    · next t hd =>
      rw [hd] at hout
      split
      · refine ⟨hg, hs, ?_⟩
        exact .inr (.inl ⟨s.hs.length, .start, by
          show (s.hs ++ [.start])[s.hs.length]? = _
          rw [List.getElem?_append_right (Nat.le_refl _), Nat.sub_self]; rfl, rfl⟩)
      · exact ⟨hg, hs, h⟩
    · exact ⟨hg, hs, h⟩
  | flush k =>
    have hout : s.out ≤ (s.flush k).out := hout
    have hI := (hi.flush k).1
    have e : (s.flush k).go = s.go ∧ (s.flush k).stop ≠ .idle ∧ ((s.stop = .set ∨ s.stop = .cancel) → (s.flush k).stop = s.stop) := by
      unfold St.flush
      have hab : s.abort.go = s.go ∧ s.abort.stop = s.stop := by unfold St.abort; split <;> exact ⟨rfl, rfl⟩
      split
      · exact ⟨rfl, hs, fun _ => rfl⟩
      · exact ⟨hab.1, by show s.abort.stop ≠ _; rw [hab.2]; exact hs, fun _ => hab.2⟩
      · split <;> exact ⟨rfl, hs, fun _ => rfl⟩
      · exact ⟨rfl, hs, fun _ => rfl⟩
      · exact ⟨rfl, hs, fun _ => rfl⟩
      · exact ⟨rfl, hs, fun _ => rfl⟩
      · refine ⟨rfl, ?_, ?_⟩
        · show (if s.stopping ∧ s.stop = .waiting then Sc.returned else s.stop) ≠ .idle
          split
          · exact fun e => nomatch e
          · exact hs
        · intro hc
          show (if s.stopping ∧ s.stop = .waiting then Sc.returned else s.stop) = s.stop
          rw [if_neg]
          rintro ⟨_, e⟩
          rw [e] at hc
          rcases hc with hc | hc <;> cases hc
      · exact ⟨rfl, hs, fun _ => rfl⟩
      · exact ⟨rfl, hs, fun _ => rfl⟩
    obtain ⟨e1, e2, e3⟩ := e
    show Due n (s.flush k)
    refine ⟨e1.trans hg, e2, ?_⟩
    rcases h with h | h | h
    · exact .inl (Nat.le_trans h hout)
    · -- a call that will take the lines: it still will, or it has
      obtain ⟨j, p, hj, hb⟩ := h
      by_cases hjk : j = k
      · subst hjk
        unfold St.flush at hout hI ⊢
        cases p with
        | start =>
          rw [hj]
          exact .inr (.inl ⟨j, _, set_get hj, by rw [hg]; rfl⟩)
        | rearm =>
          rw [hj]
          refine .inr (.inl ⟨j, .lock, ?_, rfl⟩)
          show (s.abort.hs.set j .lock)[j]? = _
          rcases abort_hs s with e | e <;> rw [e]
          · exact set_get hj
          · exact set_get (get_keep hj)
        | lock =>
          rw [hj]
          simp only
          split
          · exact .inr (.inl ⟨j, .swap, set_get hj, rfl⟩)
          · exact .inr (.inl ⟨j, .lock, hj, rfl⟩)
        | swap =>
          rw [hj] at hI ⊢
          refine .inl ?_
          have := congrArg List.length hI.lines
          rw [List.length_append, List.length_append] at this
          have hz : ([] : List Line).length = 0 := rfl
          simp only at this
          unfold St.out
          rw [hz] at this
          simp only
          omega
        | write b => cases hb
        | test => cases hb
        | done => cases hb
      · refine .inr (.inl ⟨j, p, ?_, hb⟩)
        have hkj : k ≠ j := fun e => hjk e.symm
        unfold St.flush
        split
        · exact set_keep hj hkj
        · show (s.abort.hs.set k .lock)[j]? = _
          rcases abort_hs s with e | e <;> rw [e]
          · exact set_keep hj hkj
          · exact set_keep (get_keep hj) hkj
        · split
          · exact set_keep hj hkj
          · exact hj
        · exact set_keep hj hkj
        · exact set_keep hj hkj
        · exact set_keep hj hkj
        · exact set_keep hj hkj
        · exact hj
        · exact hj
    · refine .inr (.inr ⟨by rw [e3 h.1]; exact h.1, ?_⟩)
      unfold St.flush
      split
      · exact h.2
      · rfl
      · split <;> exact h.2
      · exact h.2
      · exact h.2
      · exact h.2
      · exact h.2
      · exact h.2
      · exact h.2
  | stop =>
    have hout : s.out ≤ s.stopStep.out := hout
    show Due n s.stopStep
    cases hst : s.stop with
    | idle => exact absurd hst hs
    | set =>
      have e : s.stopStep = { s with stopping := true, stop := .cancel } := by unfold St.stopStep; rw [hst]
      rw [e] at hout ⊢
      refine ⟨hg, (fun e => nomatch e), ?_⟩
      rcases h with h | h | h
      · exact .inl h
      · exact .inr (.inl (h.keep rfl))
      · exact .inr (.inr ⟨.inr rfl, h.2⟩)
    | cancel =>
      have e : s.stopStep = { s.abort with stop := .wait } := by unfold St.stopStep; rw [hst]
      rw [e] at hout ⊢
      have hab : s.abort.go = s.go := by unfold St.abort; split <;> rfl
      refine ⟨hab.trans hg, (fun e => nomatch e), ?_⟩
      rcases h with h | h | h
      · exact .inl (Nat.le_trans h hout)
      · exact .inr (.inl (h.abort rfl))
      · obtain ⟨k, hk⟩ := abort_alive h.2
        exact .inr (.inl ⟨k, .start, hk, rfl⟩)
    | wait =>
      have e : s.stopStep = { s with stop := .waiting } := by unfold St.stopStep; rw [hst]
      rw [e]
      refine ⟨hg, (fun e => nomatch e), ?_⟩
      rcases h with h | h | h
      · exact .inl h
      · exact .inr (.inl (h.keep rfl))
      · rcases h.1 with h | h <;> rw [hst] at h <;> cases h
    | waiting =>
      have e : s.stopStep = s := by unfold St.stopStep; rw [hst]
      rw [e]; exact ⟨hg, hs, h⟩
    | returned =>
      have e : s.stopStep = s := by unfold St.stopStep; rw [hst]
      rw [e]; exact ⟨hg, hs, h⟩

theorem Due.run {level : Lv} {n : Nat} : ∀ {bs as : List Act} {s : St}, Inv level as s → n ≤ (logged level as).length → Due n s →
    Due n (s.run bs)
  | [], _, _, _, _, h => h
  | b :: bs, as, s, hi, hl, h => by
    refine Due.run (bs := bs) (as := as ++ [b]) (hi.step b).1 ?_ (h.step hi hl b)
    rw [logged_append, List.length_append]
    exact Nat.le_trans hl (Nat.le_add_right _ _)

/-- C92, `stop`: `as` is what happens until `stop` is called, `bs` what happens then. When `stop` has cancelled the timer and all calls
of `flush_all_loggers` are finished, all lines that were logged before `stop` was called are in the file. -/
theorem stop_writes_all_partial (level : Lv) (as bs : List Act) (ha : .stop ∉ as) {s : St}
    (hs : s = (St.init level).run (as ++ .stop :: bs)) (hp : s.stop ≠ .set ∧ s.stop ≠ .cancel) (hd : ∀ h ∈ s.hs, h = .done) :
    logged level as <+: s.file := by
  have h0 : Inv level as ((St.init level).run as) := by
    have := (Inv.run (bs := as) (Inv.init level)).1
    rwa [List.nil_append] at this
  obtain ⟨l1, l2, l3⟩ := Alive.run (s := St.init level) (as := as) rfl rfl (.inl rfl) ha
  rw [run_append] at hs
  have hs : s = (((St.init level).run as).step .stop).run bs := hs
  generalize (St.init level).run as = s0 at h0 l1 l2 l3 hs
  have h1 : Due (logged level as).length (s0.step .stop) := by
    have e : s0.step .stop = { s0 with go := false, stop := .set } := by
      show s0.stopStep = _
      unfold St.stopStep; rw [l3]
    rw [e]
    refine ⟨rfl, (fun e => nomatch e), ?_⟩
    rcases l1 with h | ⟨k, h | h⟩
    · exact .inr (.inr ⟨.inl rfl, h⟩)
    · exact .inr (.inl ⟨k, _, h, rfl⟩)
    · exact .inr (.inl ⟨k, _, h, rfl⟩)
  have hi := (h0.step .stop).1
  have hl : (logged level as).length ≤ (logged level (as ++ [.stop])).length := by
    rw [logged_append, List.length_append]; exact Nat.le_add_right _ _
  obtain ⟨_, _, h2⟩ := h1.run (bs := bs) hi hl
  have hf := (hi.run (bs := bs)).1
  rw [← hs] at h2 hf
  have hn : s.out = s.file.length := by
    have : s.held = [] := by
      rcases ho : s.owner with _ | k
      · exact held_none ho
      · have hk := hf.owner k ho
        have hg : s.hs[k]? = some .done := by
          rw [List.getElem?_eq_getElem hk, hd _ (List.getElem_mem hk)]
        exact held_some ho hg
    unfold St.out
    rw [this]
    rfl
  have hlen : (logged level as).length ≤ s.file.length := by
    rcases h2 with h | ⟨k, p, h, hb⟩ | ⟨h, _⟩
    · rw [← hn]; exact h
    · rw [hd p (List.mem_of_getElem? h)] at hb; cases hb
    · rcases h with h | h
      · exact absurd h hp.1
      · exact absurd h hp.2
  have hpre : s.file <+: logged level (as ++ .stop :: bs) := by
    have := hf.lines
    rw [List.append_assoc] at this
    have e : as ++ [Act.stop] ++ bs = as ++ .stop :: bs := by rw [List.append_assoc]; rfl
    rw [e] at this
    exact ⟨_, this⟩
  exact List.prefix_of_prefix_length_le (by rw [logged_append]; exact List.prefix_append _ _) hpre hlen

/-- An execution in which all of this happens: a line is logged, `stop` is called, and the line is in the file. -/
example : ∃ as bs s, Act.stop ∉ as ∧ s = (St.init .info).run (as ++ .stop :: bs) ∧ s.stop = .returned ∧ (∀ h ∈ s.hs, h = .done) ∧
    logged .info as = [⟨.err, 7⟩] ∧ s.file = [⟨.err, 7⟩] :=
  ⟨[.log ⟨.debug, 1⟩, .log ⟨.err, 7⟩], [.stop, .stop, .stop, .flush 0, .flush 0, .flush 0, .flush 0, .flush 0, .flush 0], _,
    by decide, rfl, by decide, by decide, by decide, by decide⟩

/-! ## Lines stay in memory -/

/-- Without `stop`, until 1000 hours after the first flush, there is one call of `flush_all_loggers`. -/
structure Quiet (s : St) : Prop where
  go : s.go = true
  idle : s.stop = .idle
  one : s.hs.length ≤ 1
  first : s.hs = [] → s.due = some 1000
  late : s.hs ≠ [] → 1000 ≤ s.clock ∧ ∀ t, s.due = some t → 1000 + period ≤ t
  armed : s.hs[0]? = some .start ∨ s.hs[0]? = some .rearm → s.due = none

/-- The first call has taken its lines. -/
def Taken (s : St) : Prop := ∃ h, s.hs[0]? = some h ∧ h.before = false

theorem one_zero {l : List Hc} (h : l.length ≤ 1) {k : Nat} {p : Hc} (hk : l[k]? = some p) : k = 0 := by
  have := lt_of_get hk
  omega

theorem Quiet.step {level : Lv} {as : List Act} {s : St} (hi : Inv level as s) (h : Quiet s) {a : Act} (ha : a ≠ .stop) (hc : (s.step a).clock < 1000 + period) :
    Quiet (s.step a) ∧ (Taken s → Taken (s.step a) ∧ (s.step a).out ≤ s.out) := by
  cases a with
  | log l =>
    show Quiet (s.log l) ∧ (Taken s → Taken (s.log l) ∧ (s.log l).out ≤ s.out)
    unfold St.log
    split
    · exact ⟨⟨h.go, h.idle, h.one, h.first, h.late, h.armed⟩, fun ht => ⟨ht, Nat.le_refl _⟩⟩
    · exact ⟨h, fun ht => ⟨ht, Nat.le_refl _⟩⟩
  | tick n => exact ⟨⟨h.go, h.idle, h.one, h.first, fun hn => ⟨Nat.le_trans (h.late hn).1 (Nat.le_add_right _ _), (h.late hn).2⟩, h.armed⟩,
      fun ht => ⟨ht, Nat.le_refl _⟩⟩
  | expire =>
    have hc : s.expire.clock < 1000 + period := hc
    show Quiet s.expire ∧ (Taken s → Taken s.expire ∧ s.expire.out ≤ s.out)
    have hcl : s.expire.clock = s.clock := by unfold St.expire; split <;> (try split) <;> rfl
    rw [hcl] at hc
    unfold St.expire
    split
    · next t hd =>
      split
      · next hle =>
        have he : s.hs = [] := by
          by_cases he : s.hs = []
          · exact he
          · have := (h.late he).2 t hd
            omega
        rw [h.first he] at hd
        injection hd with hd
        refine ⟨⟨h.go, h.idle, ?_, ?_, ?_, ?_⟩, ?_⟩
        · show (s.hs ++ [Hc.start]).length ≤ 1
          rw [he]; exact Nat.le_refl _
        · intro hx
          have hx : s.hs ++ [Hc.start] = [] := hx
          rw [he] at hx; cases hx
        · exact fun _ => ⟨by show 1000 ≤ s.clock; omega, fun t ht => (by cases ht)⟩
        · exact fun _ => rfl
        · rintro ⟨p, hp, _⟩
          rw [he] at hp; cases hp
      · exact ⟨h, fun ht => ⟨ht, Nat.le_refl _⟩⟩
    · exact ⟨h, fun ht => ⟨ht, Nat.le_refl _⟩⟩
  | flush k =>
    show Quiet (s.flush k) ∧ (Taken s → Taken (s.flush k) ∧ (s.flush k).out ≤ s.out)
    have hne : ∀ {p}, s.hs[k]? = some p → s.hs ≠ [] := fun hp he => by rw [he] at hp; cases hp
    have mv : ∀ {p : Hc} (q : Hc) {s' : St}, s.hs[k]? = some p → q ≠ .start → (q = .rearm → p = .start) → s'.go = true →
        s'.stop = .idle → s'.clock = s.clock → s'.due = s.due → s'.hs = s.hs.set k q → Quiet s' := by
      intro p q s' hp h1 h2 h3 h4 h5 h6 h7
      have hz := one_zero h.one hp
      subst hz
      refine ⟨h3, h4, by rw [h7, List.length_set]; exact h.one, ?_, ?_, ?_⟩
      · intro he
        rw [h7] at he
        exact absurd (List.length_eq_zero_iff.1 (by rw [← List.length_set (as := s.hs) (i := 0) (a := q), he]; rfl)) (hne hp)
      · intro _; rw [h5, h6]; exact h.late (hne hp)
      · rw [h7, set_get hp, h6]
        rintro (e | e)
        · injection e with e; exact absurd e h1
        · injection e with e
          exact h.armed (.inl (hp.trans (by rw [h2 e])))
    have nt : ∀ {p}, s.hs[k]? = some p → p.before = true → ¬ Taken s := by
      rintro p hp hb ⟨q, hq, hq'⟩
      have hz := one_zero h.one hp
      subst hz
      rw [hp] at hq; cases hq
      rw [hb] at hq'; cases hq'
    unfold St.flush
    split
    · next hk =>
      rw [if_pos h.go]
      exact ⟨mv .rearm hk (fun e => nomatch e) (fun _ => rfl) h.go h.idle rfl rfl rfl, fun ht => absurd ht (nt hk rfl)⟩
    · next hk =>
      have hz := one_zero h.one hk
      subst hz
      have hd := h.armed (.inr hk)
      have hab : s.abort = s := by unfold St.abort; rw [hd]
      rw [hab]
      refine ⟨⟨h.go, h.idle, by show (s.hs.set 0 .lock).length ≤ 1; rw [List.length_set]; exact h.one, ?_, ?_, ?_⟩,
        fun ht => absurd ht (nt hk rfl)⟩
      · intro he
        have he : s.hs.set 0 .lock = [] := he
        exact absurd (List.length_eq_zero_iff.1 (by rw [← List.length_set (as := s.hs) (i := 0) (a := .lock), he]; rfl)) (hne hk)
      · intro _
        have := (h.late (hne hk)).1
        refine ⟨this, fun t ht => ?_⟩
        have ht : some (s.clock + period) = some t := ht
        injection ht with ht
        omega
      · intro he
        have he : (s.hs.set 0 .lock)[0]? = some .start ∨ (s.hs.set 0 .lock)[0]? = some .rearm := he
        rw [set_get hk] at he
        rcases he with he | he <;> cases he
    · next hk =>
      split
      · exact ⟨mv .swap hk (fun e => nomatch e) (fun e => nomatch e) h.go h.idle rfl rfl rfl, fun ht => absurd ht (nt hk rfl)⟩
      · exact ⟨h, fun ht => ⟨ht, Nat.le_refl _⟩⟩
    · next hk => exact ⟨mv (.write s.buf) hk (fun e => nomatch e) (fun e => nomatch e) h.go h.idle rfl rfl rfl, fun ht => absurd ht (nt hk rfl)⟩
    · next l ls hk =>
      refine ⟨mv (.write ls) hk (fun e => nomatch e) (fun e => nomatch e) h.go h.idle rfl rfl rfl, fun _ => ?_⟩
      have hz := one_zero h.one hk
      subst hz
      have ho := (hi.mutex 0 _ hk).1 rfl
      refine ⟨⟨_, set_get hk, rfl⟩, ?_⟩
      unfold St.out
      rw [held_some ho hk, held_some (s := { s.goto 0 (.write ls) with file := s.file ++ [l] }) ho (set_get hk)]
      show (s.file ++ [l]).length + ls.length ≤ s.file.length + (l :: ls).length
      rw [List.length_append, List.length_singleton, List.length_cons]
      omega
    · next hk =>
      refine ⟨mv .test hk (fun e => nomatch e) (fun e => nomatch e) h.go h.idle rfl rfl rfl, fun _ => ?_⟩
      have hz := one_zero h.one hk
      subst hz
      exact ⟨⟨_, set_get hk, rfl⟩, Nat.add_le_add_left (Nat.zero_le _) _⟩
    · next hk =>
      have hno : (if s.stopping ∧ s.stop = .waiting then Sc.returned else s.stop) = .idle := by
        rw [if_neg (by rw [h.idle]; rintro ⟨_, e⟩; cases e)]
        exact h.idle
      refine ⟨mv .done hk (fun e => nomatch e) (fun e => nomatch e) h.go hno rfl rfl rfl, fun _ => ?_⟩
      have hz := one_zero h.one hk
      subst hz
      refine ⟨⟨_, set_get hk, rfl⟩, ?_⟩
      have hh := (hi.move (s' := { s.goto 0 .done with stop := if s.stopping ∧ s.stop = .waiting then .returned else s.stop })
        (q := .done) hk rfl rfl rfl rfl rfl rfl rfl).2
      unfold St.out
      rw [hh]
      exact Nat.le_refl _
    · exact ⟨h, fun ht => ⟨ht, Nat.le_refl _⟩⟩
    · exact ⟨h, fun ht => ⟨ht, Nat.le_refl _⟩⟩
  | stop => exact absurd rfl ha

theorem step_clock (s : St) (a : Act) : s.clock ≤ (s.step a).clock := by
  have hab : s.abort.clock = s.clock := by unfold St.abort; split <;> rfl
  cases a with
  | log l => show s.clock ≤ (s.log l).clock; unfold St.log; split <;> exact Nat.le_refl _
  | tick n => exact Nat.le_add_right _ _
  | expire => show s.clock ≤ s.expire.clock; unfold St.expire; split <;> (try split) <;> exact Nat.le_refl _
  | flush k =>
    show s.clock ≤ (s.flush k).clock
    unfold St.flush
    split <;> first | exact Nat.le_refl _ | exact Nat.le_of_eq hab.symm | (split <;> exact Nat.le_refl _)
  | stop =>
    show s.clock ≤ s.stopStep.clock
    unfold St.stopStep
    split <;> first | exact Nat.le_refl _ | exact Nat.le_of_eq hab.symm

theorem run_clock : ∀ (as : List Act) (s : St), s.clock ≤ (s.run as).clock
  | [], _ => Nat.le_refl _
  | a :: as, s => Nat.le_trans (step_clock s a) (run_clock as _)

theorem Quiet.run {level : Lv} : ∀ {bs as : List Act} {s : St}, Inv level as s → Quiet s → .stop ∉ bs →
    (s.run bs).clock < 1000 + period → Quiet (s.run bs) ∧ (Taken s → (s.run bs).out ≤ s.out)
  | [], _, _, _, h, _, _ => ⟨h, fun _ => Nat.le_refl _⟩
  | b :: bs, as, s, hi, h, hn, hc => by
    have hc1 : (s.step b).clock < 1000 + period := Nat.lt_of_le_of_lt (run_clock bs _) hc
    obtain ⟨h1, h2⟩ := h.step hi (a := b) (fun e => hn (e ▸ List.mem_cons_self ..)) hc1
    obtain ⟨h3, h4⟩ := Quiet.run (bs := bs) (hi.step b).1 h1 (fun e => hn (List.mem_cons_of_mem _ e)) hc
    exact ⟨h3, fun ht => Nat.le_trans (h4 (h2 ht).1) (h2 ht).2⟩

theorem Quiet.init (level : Lv) : Quiet (St.init level) :=
  ⟨rfl, rfl, Nat.zero_le _, fun _ => rfl, fun h => absurd rfl h, fun h => by rcases h with h | h <;> cases h⟩

/-- C92, negative: `as` is what happens until the first call of `flush_all_loggers` has taken the lines, one second after the start of
the service. Whatever is logged after that, at whatever level, is not in the file during the next 1000 hours, unless the service
is stopped. A process that ends within these 1000 hours without `stop`, for example by one of the calls of `::exit` in
`raft_server.cxx` right after an error was logged, ends without these lines. -/
theorem later_lines_not_written (level : Lv) (as bs : List Act) {s t : St} (hs : s = (St.init level).run as) (ht : t = s.run bs)
    (hn : .stop ∉ as ++ bs) (h0 : s.hs[0]? = some .test ∨ s.hs[0]? = some .done) (hc : t.clock < 1000 + 1000 * 3600 * 1000) :
    t.file <+: logged level as := by
  have hi := (Inv.run (bs := as) (Inv.init level)).1
  rw [List.nil_append, ← hs] at hi
  have hc : t.clock < 1000 + period := hc
  have hcs : ((St.init level).run as).clock < 1000 + period := by
    rw [← hs]
    rw [ht] at hc
    exact Nat.lt_of_le_of_lt (run_clock bs s) hc
  obtain ⟨hq, _⟩ := Quiet.run (Inv.init level) (Quiet.init level) (fun e => hn (List.mem_append_left _ e)) hcs
  rw [← hs] at hq
  have htk : Taken s := by
    rcases h0 with h | h
    · exact ⟨_, h, rfl⟩
    · exact ⟨_, h, rfl⟩
  rw [ht] at hc ⊢
  have hout := (Quiet.run hi hq (fun e => hn (List.mem_append_right _ e)) hc).2 htk
  have hj := (hi.run (bs := bs)).1
  have hl : (s.run bs).file.length ≤ (logged level as).length := by
    have := congrArg List.length hi.lines
    rw [List.length_append, List.length_append] at this
    have h2 : s.out = s.file.length + s.held.length := rfl
    have h3 : (s.run bs).out = (s.run bs).file.length + (s.run bs).held.length := rfl
    omega
  refine List.prefix_of_prefix_length_le (l₃ := logged level (as ++ bs)) ?_ ?_ hl
  · have := hj.lines
    rw [List.append_assoc] at this
    exact ⟨_, this⟩
  · rw [logged_append]; exact List.prefix_append _ _

/-- An execution in which all of this happens: 41 days later an error is not in the file. -/
example : ∃ as bs s t, s = (St.init .info).run as ∧ t = s.run bs ∧ .stop ∉ as ++ bs ∧ s.hs[0]? = some .done ∧
    t.clock < 1000 + 1000 * 3600 * 1000 ∧ logged .info as = [⟨.info, 1⟩] ∧ logged .info (as ++ bs) = [⟨.info, 1⟩, ⟨.err, 2⟩] ∧
    t.file = [⟨.info, 1⟩] :=
  ⟨[.log ⟨.info, 1⟩, .tick 1000, .expire, .flush 0, .flush 0, .flush 0, .flush 0, .flush 0, .flush 0, .flush 0],
    [.log ⟨.err, 2⟩, .tick 3599999000, .expire, .flush 0], _, _, rfl, rfl, by decide, by decide, by decide, by decide, by decide, by decide⟩

/-- C92, negative: `stop` returns, and a line that was logged before `stop` was called is not in the file (and will not be, if the
process ends then): the call of `flush_all_loggers` that releases `stop` may be one that took the lines before this one was logged. -/
theorem stop_returns_too_early : ∃ as bs s, Act.stop ∉ as ∧ s = (St.init .info).run (as ++ .stop :: bs) ∧ s.stop = .returned ∧
    logged .info as = [⟨.err, 7⟩] ∧ s.file = [] :=
  ⟨[.tick 1000, .expire, .flush 0, .flush 0, .flush 0, .flush 0, .log ⟨.err, 7⟩], [.stop, .stop, .stop, .flush 0, .flush 0], _,
    by decide, rfl, by decide, by decide, by decide⟩

end Cs.Logger
