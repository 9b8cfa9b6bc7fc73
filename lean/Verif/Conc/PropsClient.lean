import Verif.Conc.Client

/-!
# The RPC client (C66, C67, C68)
-/

namespace Cs.Client

theorem run_append (s : St) (as bs : List Act) : run s (as ++ bs) = run (run s as) bs := List.foldl_append

theorem run_snoc (s : St) (as : List Act) (a : Act) : run s (as ++ [a]) = step (run s as) a := by rw [run_append]; rfl

/-- Induction over executions. -/
theorem run_induct {P : St → Prop} (hs : ∀ s a, P s → P (step s a)) {s : St} (h : P s) (as : List Act) : P (run s as) := by
  induction as generalizing s with
  | nil => exact h
  | cons a as ih => exact ih (hs s a h)

/-! ## Every request has one outcome (C66) -/

/-- How often the handler of a request has been called. -/
def St.times (s : St) (k : Nat) : Nat := (s.calls.filter fun c => c.1 = k).length

/-- How many requests have been sent. -/
def sends (as : List Act) : Nat := (as.filter fun a => a = .send).length

/-- The request is at this place. -/
def St.at (s : St) (k : Nat) (p : Pc) : Prop := s.reqs[k]? = some p

/-- The handlers of the requests that are done have been called once, the others not at all. The reads queue up once. -/
structure Once (s : St) : Prop where
  done : ∀ k, s.at k .done → s.times k = 1
  open_ : ∀ k, ¬ s.at k .done → s.times k = 0
  reads : ∀ k, k ∈ s.readers ↔ s.at k .read
  nodup : s.readers.Nodup

theorem at_unique {s : St} {k : Nat} {p q : Pc} (h : s.at k p) (h' : s.at k q) : p = q := by
  unfold St.at at *; rw [h] at h'; cases h'; rfl

theorem at_goto {s : St} {k j : Nat} {p q : Pc} : (s.goto k p).at j q ↔ if k = j then (q = p ∧ k < s.reqs.length) else s.at j q := by
  unfold St.at St.goto
  simp only [List.getElem?_set]
  by_cases h : k = j
  · subst h
    rw [if_pos rfl, if_pos rfl]
    by_cases hl : k < s.reqs.length
    · rw [if_pos hl]
      exact ⟨fun e => ⟨(Option.some.inj e).symm, hl⟩, fun e => by rw [e.1]⟩
    · rw [if_neg hl]
      exact ⟨fun e => (by cases e), fun e => absurd e.2 hl⟩
  · rw [if_neg h, if_neg h]

theorem at_lt {s : St} {k : Nat} {p : Pc} (h : s.at k p) : k < s.reqs.length := (List.getElem?_eq_some_iff.1 h).1

theorem at_close {s : St} {k : Nat} {q : Pc} : s.close.at k q ↔ ∃ p, s.at k p ∧ p.aborted = q := by
  unfold St.at St.close
  simp only [List.getElem?_map]
  cases s.reqs[k]? with
  | none => simp
  | some p => simp

theorem aborted_done {p : Pc} (h : p.aborted = .done) : p = .done := by cases p <;> first | rfl | cases h

theorem aborted_read {p : Pc} : p.aborted ≠ .read := by cases p <;> simp [Pc.aborted]

theorem at_close_done {s : St} {k : Nat} : s.close.at k .done ↔ s.at k .done := by
  rw [at_close]
  constructor
  · rintro ⟨p, h, e⟩; rw [aborted_done e] at h; exact h
  · intro h; exact ⟨.done, h, rfl⟩

theorem Once.close {s : St} (h : Once s) : Once s.close where
  done := fun k hk => h.done k (at_close_done.1 hk)
  open_ := fun k hk => h.open_ k fun hd => hk (at_close_done.2 hd)
  reads := fun k => ⟨fun hm => (by cases hm), fun hr => by
    obtain ⟨p, _, e⟩ := at_close.1 hr
    exact absurd e aborted_read⟩
  nodup := List.nodup_nil

/-- A request moves on without its handler being called. -/
theorem Once.goto {s s' : St} (h : Once s) {k : Nat} {p q : Pc} (hk : s.at k p) (hp : p ≠ .done) (hq : q ≠ .done)
    (hc : s'.calls = s.calls) (hr : s'.reqs = (s.goto k q).reqs)
    (hm : ∀ j, j ∈ s'.readers ↔ if k = j then q = .read else j ∈ s.readers) (hn : s'.readers.Nodup) : Once s' := by
  have ha : ∀ j r, s'.at j r ↔ (s.goto k q).at j r := fun j r => by unfold St.at; rw [hr]
  have hd : ∀ j, s'.at j .done ↔ s.at j .done := by
    intro j
    rw [ha, at_goto]
    split
    · rename_i e; subst e
      exact ⟨fun e => absurd e.1.symm hq, fun e => absurd (at_unique hk e) hp⟩
    · rfl
  have ht : ∀ j, s'.times j = s.times j := fun j => by unfold St.times; rw [hc]
  refine ⟨fun j hj => ?_, fun j hj => ?_, fun j => ?_, hn⟩
  · rw [ht]; exact h.done j ((hd j).1 hj)
  · rw [ht]; exact h.open_ j fun e => hj ((hd j).2 e)
  · rw [hm, ha, at_goto]
    split
    · exact ⟨fun e => ⟨e.symm, at_lt hk⟩, fun e => e.1.symm⟩
    · exact h.reads j

/-- The handler is called. -/
theorem Once.call {s : St} (h : Once s) {k : Nat} {a : Option Nat} {p : Pc} (hk : s.at k p) (hp : p ≠ .done)
    (hr : p ≠ .read) : Once (s.call k a) := by
  have ha : ∀ j r, (s.call k a).at j r ↔ (s.goto k .done).at j r := fun j r => Iff.rfl
  have ht : ∀ j, (s.call k a).times j = s.times j + if k = j then 1 else 0 := by
    intro j
    unfold St.times St.call
    simp only [List.filter_append, List.length_append]
    by_cases e : k = j
    · subst e; simp
    · simp [e]
  refine ⟨fun j hj => ?_, fun j hj => ?_, fun j => ?_, h.nodup⟩
  · rw [ha, at_goto] at hj
    rw [ht]
    split at hj
    · rename_i e; subst e
      rw [h.open_ k fun e => hp (at_unique hk e), if_pos rfl]
    · rename_i e
      rw [if_neg e, h.done j hj]
  · rw [ha, at_goto] at hj
    rw [ht]
    split at hj
    · rename_i e; subst e
      exact absurd ⟨rfl, at_lt hk⟩ hj
    · rename_i e
      rw [if_neg e, h.open_ j hj]
  · rw [ha, at_goto]
    show j ∈ s.readers ↔ _
    rw [h.reads]
    split
    · rename_i e; subst e
      exact ⟨fun e => absurd (at_unique hk e) hr, fun e => absurd e.1 (by simp)⟩
    · rfl

theorem firstOp_done (s : St) : s.firstOp ≠ .done := by unfold St.firstOp; split <;> simp
theorem firstOp_read (s : St) : s.firstOp ≠ .read := by unfold St.firstOp; split <;> simp

/-- No reader is added or removed. -/
theorem Once.plain {s s' : St} (h : Once s) {k : Nat} {p q : Pc} (hk : s.at k p) (hp : p ≠ .done) (hp' : p ≠ .read)
    (hq : q ≠ .done) (hq' : q ≠ .read) (hc : s'.calls = s.calls) (hr : s'.reqs = (s.goto k q).reqs)
    (hm : s'.readers = s.readers) : Once s' := by
  refine h.goto hk hp hq hc hr (fun j => ?_) (hm ▸ h.nodup)
  rw [hm]
  split
  · rename_i e; subst e
    rw [h.reads]
    exact ⟨fun e => absurd (at_unique hk e) hp', fun e => absurd e hq'⟩
  · rfl

theorem once_take {s : St} (h : Once s) (k : Nat) : Once (stepTake s k) := by
  unfold stepTake
  generalize hq : s.reqs[k]? = q
  have ca : ∀ {p}, s.at k p → p ≠ .done → p.aborted ≠ .done := fun _ hp e => hp (aborted_done e)
  split
  · exact h.plain hq (by simp) (by simp) (firstOp_done s) (firstOp_read s) rfl rfl rfl
  · exact h.call hq (by simp) (by simp)
  · unfold St.startRead
    split
    · exact h.plain hq (by simp) (by simp) (q := .gotten none) (by simp) (by simp) rfl rfl rfl
    · have hn : k ∉ s.readers := fun hm => by
        have := at_unique hq ((h.reads k).1 hm); cases this
      refine h.goto hq (by simp) (q := .read) (by simp) rfl rfl (fun j => ?_) ?_
      · show j ∈ s.readers ++ [k] ↔ _
        rw [List.mem_append, List.mem_singleton]
        split
        · rename_i e; subst e; simp
        · rename_i e
          exact ⟨fun hj => hj.resolve_right fun e' => e e'.symm, .inl⟩
      · show (s.readers ++ [k]).Nodup
        rw [List.nodup_append]
        refine ⟨h.nodup, (by simp), fun a ha b hb e => ?_⟩
        rw [List.mem_singleton] at hb
        exact hn (by rw [← hb, ← e]; exact ha)
  · exact h.close.call (at_close.2 ⟨_, hq, rfl⟩) (by simp [Pc.aborted]) (by simp [Pc.aborted])
  · exact h.call hq (by simp) (by simp)
  · exact h.close.call (at_close.2 ⟨_, hq, rfl⟩) (by simp [Pc.aborted]) (by simp [Pc.aborted])
  · exact h

theorem once_answer {s : St} (h : Once s) : Once (stepAnswer s) := by
  unfold stepAnswer
  split
  · rename_i k rs a w hr hw
    split
    · have hk : s.at k .read := (h.reads k).1 (by rw [hr]; exact List.mem_cons_self ..)
      have hn := h.nodup
      rw [hr, List.nodup_cons] at hn
      refine h.goto hk (by simp) (q := .gotten (some a)) (by simp) rfl rfl (fun j => ?_) hn.2
      show j ∈ rs ↔ _
      split
      · rename_i e; subst e
        exact ⟨fun hj => absurd hj hn.1, fun e => (by cases e)⟩
      · rename_i e
        rw [hr, List.mem_cons]
        exact ⟨.inr, fun hj => hj.resolve_left fun e' => e e'.symm⟩
    · exact h
  · exact h

theorem once_step (s : St) (a : Act) (h : Once s) : Once (step s a) := by
  cases a with
  | send =>
    have ha : ∀ j q, (step s .send).at j q ↔ s.at j q ∨ (j = s.reqs.length ∧ q = s.firstOp) := by
      intro j q
      show (s.reqs ++ [s.firstOp])[j]? = _ ↔ _
      unfold St.at
      rcases Nat.lt_trichotomy j s.reqs.length with hj | hj | hj
      · rw [List.getElem?_append_left hj]
        exact ⟨.inl, fun e => e.resolve_right fun e => by omega⟩
      · subst hj
        rw [List.getElem?_append_right (Nat.le_refl _), List.getElem?_eq_none (Nat.le_refl s.reqs.length)]
        simp [eq_comm]
      · rw [List.getElem?_eq_none (by simp; omega), List.getElem?_eq_none (by omega)]
        exact ⟨fun e => (by cases e), fun e => e.elim (fun e => (by cases e)) fun e => by omega⟩
    refine ⟨fun k hk => ?_, fun k hk => ?_, fun k => ?_, h.nodup⟩
    · exact h.done k (((ha k _).1 hk).resolve_right fun e => firstOp_done s e.2.symm)
    · exact h.open_ k fun e => hk ((ha k _).2 (.inl e))
    · rw [ha]
      show k ∈ s.readers ↔ _
      rw [h.reads]
      exact ⟨.inl, fun e => e.resolve_right fun e => firstOp_read s e.2.symm⟩
  | resolved k ok =>
    show Once (stepResolved s k ok)
    unfold stepResolved
    split
    · rename_i hk
      cases ok with
      | false => exact h.call hk (by simp) (by simp)
      | true =>
        exact h.close.plain (at_close.2 ⟨_, hk, rfl⟩) (by simp [Pc.aborted]) (by simp [Pc.aborted]) (q := .connect) (by simp)
          (by simp) rfl rfl rfl
    · exact h
  | connectEnd k ok =>
    show Once (stepConnect s k ok)
    unfold stepConnect
    split
    · rename_i hk
      exact h.plain hk.1 (by simp) (by simp) (q := .connected ok) (by simp) (by simp) rfl rfl rfl
    · exact h
  | writeEnd k ok =>
    show Once (stepWrite s k ok)
    unfold stepWrite
    split
    · rename_i hk
      exact h.plain hk.1 (by simp) (by simp) (q := .written ok) (by simp) (by simp) rfl rfl rfl
    · exact h
  | answer => exact once_answer h
  | readErr k =>
    show Once (stepReadErr s k)
    unfold stepReadErr
    split
    · rename_i hk
      refine h.goto hk.1 (by simp) (q := .gotten none) (by simp) rfl rfl (fun j => ?_) (h.nodup.erase k)
      show j ∈ s.readers.erase k ↔ _
      rw [h.nodup.mem_erase_iff]
      split
      · rename_i e; subst e
        exact ⟨fun e => absurd rfl e.1, fun e => (by cases e)⟩
      · rename_i e
        exact ⟨fun e => e.2, fun hj => ⟨fun e' => e e'.symm, hj⟩⟩
    · exact h
  | lost =>
    show Once (stepLost s)
    unfold stepLost
    split
    · exact ⟨h.done, h.open_, h.reads, h.nodup⟩
    · exact h
  | take k => exact once_take h k

theorem once_init : Once {} :=
  ⟨fun k h => (by cases h), fun _ _ => rfl, fun k => ⟨fun h => (by cases h), fun h => (by cases h)⟩, List.nodup_nil⟩

theorem once_run (as : List Act) : Once (run {} as) := run_induct once_step once_init as

theorem length_step (s : St) (a : Act) : (step s a).reqs.length = s.reqs.length + if a = .send then 1 else 0 := by
  cases a with
  | send => simp [step]
  | resolved k ok =>
    show (stepResolved s k ok).reqs.length = _
    unfold stepResolved St.startConnect St.call St.goto St.close
    split
    · cases ok <;> simp
    · simp
  | connectEnd k ok =>
    show (stepConnect s k ok).reqs.length = _
    unfold stepConnect St.goto
    split <;> simp
  | writeEnd k ok =>
    show (stepWrite s k ok).reqs.length = _
    unfold stepWrite St.goto
    split <;> simp
  | answer =>
    show (stepAnswer s).reqs.length = _
    unfold stepAnswer St.goto
    split
    · split <;> simp
    · simp
  | readErr k =>
    show (stepReadErr s k).reqs.length = _
    unfold stepReadErr St.goto
    split <;> simp
  | lost =>
    show (stepLost s).reqs.length = _
    unfold stepLost
    split <;> simp
  | take k =>
    show (stepTake s k).reqs.length = _
    unfold stepTake
    split <;> simp [St.goto, St.call, St.close, St.startRead]
    split <;> simp

theorem length_run (s : St) (as : List Act) : (run s as).reqs.length = s.reqs.length + sends as := by
  induction as generalizing s with
  | nil => rfl
  | cons a as ih =>
    show (run (step s a) as).reqs.length = _
    rw [ih, length_step]
    unfold sends
    by_cases h : a = .send <;> simp [h]
    omega

/-- The handler of the request has not been called yet: one of its operations runs, or its completion waits for a thread. -/
def St.pending (s : St) (k : Nat) : Prop := ∃ p, s.reqs[k]? = some p ∧ p ≠ .done

/-- **C66.** However many requests are sent at the same time and whatever the network does, the handler of a request that has
been sent is called at most once, and it has been called exactly once when nothing of the request is outstanding. No handler is
called without a request. -/
theorem handler_called_once (as : List Act) (k : Nat) :
    (k < sends as → (run {} as).pending k ∧ (run {} as).times k = 0 ∨ ¬ (run {} as).pending k ∧ (run {} as).times k = 1) ∧
    (sends as ≤ k → (run {} as).times k = 0) := by
  have h := once_run as
  have hl := length_run {} as
  have hl : (run {} as).reqs.length = sends as := by rw [hl]; exact Nat.zero_add _
  refine ⟨fun hk => ?_, fun hk => h.open_ k fun e => by have := at_lt e; omega⟩
  obtain ⟨p, hp⟩ : ∃ p, (run {} as).reqs[k]? = some p := ⟨_, List.getElem?_eq_getElem (by omega)⟩
  by_cases hd : p = .done
  · subst hd
    right
    refine ⟨fun ⟨q, hq, hn⟩ => ?_, h.done k hp⟩
    rw [hp] at hq; cases hq; exact hn rfl
  · exact .inl ⟨⟨p, hp, hd⟩, h.open_ k fun e => hd (at_unique (s := run {} as) hp e)⟩

/-- Three requests at the same time, one of which fails. -/
example : let s := run {} [.send, .resolved 0 true, .connectEnd 0 true, .take 0, .send, .writeEnd 0 true, .take 0, .answer,
    .take 0, .lost, .writeEnd 1 false, .send, .take 1]
    sends [.send, .resolved 0 true, .connectEnd 0 true, .take 0, .send, .writeEnd 0 true, .take 0, .answer,
      .take 0, .lost, .writeEnd 1 false, .send, .take 1] = 3 ∧ s.times 0 = 1 ∧ s.times 1 = 1 ∧ s.times 2 = 0 ∧
    s.calls = [(0, some 0), (1, none)] := by decide

/-! ## One request at a time (C66, C67) -/

/-- No request is outstanding. -/
def St.idle (s : St) : Prop := ∀ p ∈ s.reqs, p = .done

/-- A request is sent only when no other is outstanding. -/
def Alone : St → List Act → Prop
  | _, [] => True
  | s, a :: as => (a = .send → s.idle) ∧ Alone (step s a) as

/-- How the connection fits the request `k` that is under way. -/
def Fit (k : Nat) (sock : Sock) (wire : List Nat) : Option Pc → Prop
  | none => sock ≠ .opening ∧ wire = []
  | some .resolve => sock = .closed ∧ wire = []
  | some .connect => sock = .opening ∧ wire = []
  | some (.connected true) => (sock = .up ∨ sock = .dead) ∧ wire = []
  | some (.connected false) => sock = .dead ∧ wire = []
  | some .write => (sock = .up ∨ sock = .dead) ∧ wire = []
  | some (.written true) => sock = .up ∧ wire = [k] ∨ sock = .dead ∧ wire = []
  | some (.written false) => sock = .dead ∧ wire = []
  | some .read => sock = .up ∧ wire = [k] ∨ sock = .dead ∧ wire = []
  | some (.gotten (some a)) => a = k ∧ (sock = .up ∨ sock = .dead) ∧ wire = []
  | some (.gotten none) => sock = .dead ∧ wire = []
  | some .done => False

/-- The first `n` requests are done; if there is another it is at the place `o`. -/
structure Single (s : St) (n : Nat) (o : Option Pc) : Prop where
  reqs : s.reqs = List.replicate n .done ++ o.toList
  fit : Fit n s.sock s.wire o
  readers : s.readers = if o = some .read then [n] else []
  calls : ∀ c ∈ s.calls, c.2 = none ∨ c.2 = some c.1

theorem Single.get {s : St} {n : Nat} {o : Option Pc} (h : Single s n o) {k : Nat} {p : Pc} (hk : s.reqs[k]? = some p)
    (hp : p ≠ .done) : k = n ∧ o = some p := by
  rw [h.reqs, List.getElem?_append] at hk
  split at hk
  · rename_i hl
    rw [List.getElem?_replicate] at hk
    rw [List.length_replicate] at hl
    rw [if_pos hl] at hk
    cases hk
    exact absurd rfl hp
  · rename_i hl
    rw [List.length_replicate] at hl hk
    cases o with
    | none => cases hk
    | some q =>
      cases hj : k - n with
      | zero => rw [hj] at hk; cases hk; exact ⟨by omega, rfl⟩
      | succ j => rw [hj] at hk; cases hk

theorem Single.at {s : St} {n : Nat} {p : Pc} (h : Single s n (some p)) : s.reqs[n]? = some p := by
  rw [h.reqs, List.getElem?_append_right (by simp)]
  simp

theorem Single.set {s : St} {n : Nat} {p : Pc} (h : Single s n (some p)) (q : Pc) :
    s.reqs.set n q = List.replicate n .done ++ [q] := by
  rw [h.reqs, List.set_append_right _ _ (by simp)]
  simp

theorem Single.idle {s : St} {n : Nat} {o : Option Pc} (h : Single s n o) (hi : s.idle) : o = none := by
  cases o with
  | none => rfl
  | some p =>
    have : p = .done := hi p (by rw [h.reqs]; simp)
    subst this
    exact absurd h.fit id

theorem Single.close_reqs {s : St} {n : Nat} {p : Pc} (h : Single s n (some p)) :
    s.close.reqs = List.replicate n .done ++ [p.aborted] := by
  show s.reqs.map Pc.aborted = _
  rw [h.reqs]
  simp [Pc.aborted]

/-- The request moves on. -/
theorem Single.move {s s' : St} {n : Nat} {p q : Pc} (h : Single s n (some p)) (hr : s'.reqs = s.reqs.set n q)
    (hc : s'.calls = s.calls) (hf : Fit n s'.sock s'.wire (some q)) (hd : s'.readers = if q = .read then [n] else []) :
    Single s' n (some q) :=
  ⟨by rw [hr, h.set]; rfl, hf, by rw [hd]; simp, by rw [hc]; exact h.calls⟩

/-- The handler of the request is called. -/
theorem Single.finish {s s' : St} {n : Nat} {p : Pc} (h : Single s n (some p)) {r : Option Nat}
    (hr : s'.reqs = List.replicate n .done ++ [.done]) (hc : s'.calls = s.calls ++ [(n, r)]) (hv : r = none ∨ r = some n)
    (hf : Fit (n + 1) s'.sock s'.wire none) (hd : s'.readers = []) : Single s' (n + 1) none := by
  refine ⟨?_, hf, hd, fun c hm => ?_⟩
  · rw [hr, List.replicate_succ']; simp
  · rw [hc, List.mem_append, List.mem_singleton] at hm
    rcases hm with hm | hm
    · exact h.calls c hm
    · subst hm; exact hv

/-- The network and the server do their work. -/
def Act.good : Act → Prop
  | .resolved _ ok => ok = true
  | .connectEnd _ ok => ok = true
  | .lost => False
  | _ => True

/-- The next request is going to fail. -/
def Lame (o : Option Pc) : Prop := o = none ∨ o = some .write ∨ o = some (.written false)

/-- How many completions are still to come for a request. -/
def Pc.rank : Pc → Nat
  | .resolve => 7
  | .connect => 6
  | .connected _ => 5
  | .write => 4
  | .written _ => 3
  | .read => 2
  | .gotten _ => 1
  | .done => 0

/-- The same for the request that is under way. -/
def rankOf : Option Pc → Nat
  | none => 0
  | some p => p.rank

/-- The client does something by itself: no request is sent and the connection is not lost. -/
def Act.own (a : Act) : Prop := a ≠ .send ∧ a ≠ .lost

/-- What a step does to a client with at most one request under way. -/
inductive Next (s : St) (n : Nat) (o : Option Pc) (g f : Prop) (s' : St) : Prop where
  | move (o' : Option Pc) (h : Single s' n o') (hc : s'.calls = s.calls) (hg : g → s.sock ≠ .dead → s'.sock ≠ .dead)
      (hl : g → s.sock = .dead → Lame o → s'.sock = .dead ∧ Lame o')
      (hk : f → s' = s ∨ rankOf o' < rankOf o)
  | finish (r : Option Nat) (h : Single s' (n + 1) none) (hc : s'.calls = s.calls ++ [(n, r)])
      (hg : g → s.sock ≠ .dead → r = some n ∧ s'.sock ≠ .dead) (hl : g → s.sock = .dead → Lame o → s'.sock ≠ .dead)
      (hk : 0 < rankOf o)

theorem Next.same {s : St} {n : Nat} {o : Option Pc} {g f : Prop} (h : Single s n o) : Next s n o g f s :=
  .move o h rfl (fun _ h => h) (fun _ h l => ⟨h, l⟩) fun _ => .inl rfl

theorem single_take {s : St} {n : Nat} {o : Option Pc} (h : Single s n o) (k : Nat) : Next s n o True True (stepTake s k) := by
  unfold stepTake
  generalize hq : s.reqs[k]? = q
  split
  · obtain ⟨rfl, rfl⟩ := h.get hq (by simp)
    have hf := h.fit
    have hw : s.firstOp = .write := by
      unfold St.firstOp
      rcases hf.1 with e | e <;> rw [e] <;> rfl
    rw [hw]
    refine .move _ (h.move (q := .write) rfl rfl ⟨hf.1, hf.2⟩ h.readers) rfl (fun _ h => h) ?_ fun _ => .inr (by decide)
    intro _ _ hl; rcases hl with e | e | e <;> cases e
  · obtain ⟨rfl, rfl⟩ := h.get hq (by simp)
    have hf := h.fit
    refine .finish none (h.finish (h.set _) rfl (.inl rfl) ⟨?_, hf.2⟩ h.readers) rfl ?_ ?_ (by decide)
    · show s.sock ≠ _
      rw [hf.1]; simp
    · intro _ hn; exact absurd hf.1 hn
    · intro _ _ hl; rcases hl with e | e | e <;> cases e
  · obtain ⟨rfl, rfl⟩ := h.get hq (by simp)
    have hf := h.fit
    have hc : s.sock ≠ .closed := by rcases hf with e | e <;> rw [e.1] <;> simp
    unfold St.startRead
    rw [if_neg hc]
    refine .move _ (h.move (q := .read) rfl rfl hf ?_) rfl (fun _ h => h) ?_ fun _ => .inr (by decide)
    · show s.readers ++ [k] = _
      rw [h.readers]; rfl
    · intro _ _ hl; rcases hl with e | e | e <;> cases e
  · obtain ⟨rfl, rfl⟩ := h.get hq (by simp)
    have hf := h.fit
    refine .finish none (h.finish ?_ rfl (.inl rfl) ⟨?_, rfl⟩ rfl) rfl ?_ ?_ (by decide)
    · show s.close.reqs.set k .done = _
      rw [h.close_reqs, List.set_append_right _ _ (by simp)]; simp
    · show Sock.closed ≠ _; simp
    · intro _ hn; exact absurd hf.1 hn
    · intro _ _ _; show Sock.closed ≠ _; simp
  · obtain ⟨rfl, rfl⟩ := h.get hq (by simp)
    obtain ⟨rfl, hf⟩ := h.fit
    refine .finish _ (h.finish (h.set _) rfl (.inr rfl) ⟨?_, hf.2⟩ h.readers) rfl ?_ ?_ Nat.zero_lt_one
    · show s.sock ≠ _
      rcases hf.1 with e | e <;> rw [e] <;> simp
    · intro _ hn; exact ⟨rfl, hn⟩
    · intro _ _ hl; rcases hl with e | e | e <;> cases e
  · obtain ⟨rfl, rfl⟩ := h.get hq (by simp)
    have hf := h.fit
    refine .finish none (h.finish ?_ rfl (.inl rfl) ⟨?_, rfl⟩ rfl) rfl ?_ ?_ (by decide)
    · show s.close.reqs.set k .done = _
      rw [h.close_reqs, List.set_append_right _ _ (by simp)]; simp
    · show Sock.closed ≠ _; simp
    · intro _ hn; exact absurd hf.1 hn
    · intro _ _ _; show Sock.closed ≠ _; simp
  · exact .same h

theorem single_step {s : St} {n : Nat} {o : Option Pc} (h : Single s n o) (a : Act) (ha : a = .send → o = none) :
    Next s n o a.good a.own (step s a) := by
  cases a with
  | send =>
    have := ha rfl
    subst this
    have hf := h.fit
    refine .move (some s.firstOp) ⟨?_, ?_, ?_, h.calls⟩ rfl (fun _ h => h) (fun _ hd _ => ⟨hd, ?_⟩) fun e => absurd rfl e.1
    · show s.reqs ++ [s.firstOp] = _
      rw [h.reqs]; simp
    · show Fit n s.sock s.wire _
      obtain ⟨h1, h2⟩ := hf
      unfold St.firstOp
      cases hs : s.sock with
      | closed => exact ⟨rfl, h2⟩
      | opening => exact absurd hs h1
      | up => exact ⟨.inl rfl, h2⟩
      | dead => exact ⟨.inr rfl, h2⟩
    · show s.readers = _
      rw [h.readers, if_neg (by simp), if_neg fun e => firstOp_read s (Option.some.inj e)]
    · unfold St.firstOp; rw [hd]; exact .inr (.inl rfl)
  | resolved k ok =>
    show Next _ _ _ _ _ (stepResolved s k ok)
    unfold stepResolved
    split
    · rename_i hk
      obtain ⟨rfl, rfl⟩ := h.get hk (by simp)
      have hf := h.fit
      cases ok with
      | true =>
        refine .move (some .connect) (h.move (s' := s.startConnect k) (q := .connect) ?_ rfl ⟨rfl, rfl⟩ rfl) rfl ?_ ?_
          fun _ => .inr (by decide)
        · show s.close.reqs.set k .connect = s.reqs.set k .connect
          rw [h.close_reqs, h.reqs]; rfl
        · intro _ _; show Sock.opening ≠ _; simp
        · intro _ hd; rw [hf.1] at hd; cases hd
      | false =>
        refine .finish none (h.finish (h.set _) rfl (.inl rfl) ⟨?_, hf.2⟩ h.readers) rfl (fun g => ?_)
          (fun g => ?_) (by decide)
        · show s.sock ≠ _
          rw [hf.1]; simp
        · cases g
        · cases g
    · exact .same h
  | connectEnd k ok =>
    show Next _ _ _ _ _ (stepConnect s k ok)
    unfold stepConnect
    split
    · rename_i hk
      obtain ⟨rfl, rfl⟩ := h.get hk.1 (by simp)
      have hf := h.fit
      refine .move (some (.connected ok)) (h.move rfl rfl ?_ h.readers) rfl (fun g _ => ?_) (fun _ hd => ?_)
        fun _ => .inr (by cases ok <;> decide)
      · cases ok with
        | true => exact ⟨.inl rfl, hf.2⟩
        | false => exact ⟨rfl, hf.2⟩
      · cases g; show Sock.up ≠ _; simp
      · rw [hf.1] at hd; cases hd
    · exact .same h
  | writeEnd k ok =>
    show Next _ _ _ _ _ (stepWrite s k ok)
    unfold stepWrite
    split
    · rename_i hk
      obtain ⟨rfl, rfl⟩ := h.get hk.1 (by simp)
      have hf := h.fit
      have hk := hk.2
      refine .move (some (.written ok)) (h.move rfl rfl ?_ h.readers) rfl (fun _ h => h) (fun _ hd _ => ⟨hd, ?_⟩)
        fun _ => .inr (by cases ok <;> decide)
      · cases ok with
        | true => exact .inl ⟨hk.2 rfl, by show s.wire ++ [k] = _; rw [hf.2]; rfl⟩
        | false =>
          refine ⟨hf.1.resolve_left fun e => ?_, hf.2⟩
          have := hk.1 e
          cases this
      · cases ok with
        | true => have := hk.2 rfl; rw [hd] at this; cases this
        | false => exact .inr (.inr rfl)
    · exact .same h
  | answer =>
    show Next _ _ _ _ _ (stepAnswer s)
    unfold stepAnswer
    split
    · rename_i k rs a w hr hw
      split
      · rename_i hu
        have hrd := h.readers
        rw [hr] at hrd
        split at hrd
        · rename_i ho
          subst ho
          cases hrd
          have hf := h.fit
          rw [hw, hu] at hf
          rcases hf with ⟨_, e⟩ | ⟨e, _⟩
          · cases e
            refine .move (some (.gotten (some n))) (h.move rfl rfl ⟨rfl, .inl hu, rfl⟩ rfl) rfl (fun _ h => h)
              (fun _ hd => ?_) fun _ => .inr (by show 1 < 2; decide)
            rw [hu] at hd; cases hd
          · cases e
        · cases hrd
      · exact .same h
    · exact .same h
  | readErr k =>
    show Next _ _ _ _ _ (stepReadErr s k)
    unfold stepReadErr
    split
    · rename_i hk
      obtain ⟨rfl, rfl⟩ := h.get hk.1 (by simp)
      have hf := h.fit
      refine .move (some (.gotten none)) (h.move rfl rfl ⟨hk.2, ?_⟩ ?_) rfl (fun _ h => h) ?_
        fun _ => .inr (by decide)
      · rcases hf with e | e
        · rw [hk.2] at e; cases e.1
        · exact e.2
      · show s.readers.erase k = _
        rw [h.readers, if_pos rfl]; simp
      · intro _ _ hl; rcases hl with e | e | e <;> cases e
    · exact .same h
  | lost =>
    show Next _ _ _ _ _ (stepLost s)
    unfold stepLost
    split
    · rename_i hu
      refine .move o ⟨h.reqs, ?_, h.readers, h.calls⟩ rfl (fun g => g.elim) (fun g => g.elim) fun e => absurd rfl e.2
      have hf := h.fit
      show Fit n .dead [] o
      rw [hu] at hf
      cases o with
      | none => exact ⟨by simp, rfl⟩
      | some p =>
        cases p with
        | resolve => cases hf.1
        | connect => cases hf.1
        | connected ok => cases ok with
          | true => exact ⟨.inr rfl, rfl⟩
          | false => exact ⟨rfl, rfl⟩
        | write => exact ⟨.inr rfl, rfl⟩
        | written ok => cases ok with
          | true => exact .inr ⟨rfl, rfl⟩
          | false => exact ⟨rfl, rfl⟩
        | read => exact .inr ⟨rfl, rfl⟩
        | gotten a => cases a with
          | some a => exact ⟨hf.1, .inr rfl, rfl⟩
          | none => exact ⟨rfl, rfl⟩
        | done => exact hf
    · exact .same h
  | take k =>
    cases single_take h k with
    | move o' h1 h2 h3 h4 h5 => exact .move o' h1 h2 (fun _ => h3 trivial) (fun _ => h4 trivial) fun _ => h5 trivial
    | finish r h1 h2 h3 h4 h5 => exact .finish r h1 h2 (fun _ => h3 trivial) (fun _ => h4 trivial) h5

theorem single_init : Single {} 0 none := ⟨rfl, ⟨by simp, rfl⟩, rfl, fun c h => (by cases h)⟩

theorem single_run {s : St} {n : Nat} {o : Option Pc} (h : Single s n o) {as : List Act} (ha : Alone s as) :
    ∃ n' o', Single (run s as) n' o' := by
  induction as generalizing s n o with
  | nil => exact ⟨n, o, h⟩
  | cons a as ih =>
    cases single_step h a fun e => h.idle (ha.1 e) with
    | move o' h' => exact ih h' ha.2
    | finish r h' => exact ih h' ha.2

/-- **C67 (partial).** As long as a request is sent only when no other is outstanding, a handler that is given an answer is given
the answer to its request. Missing: requests sent at the same time, for which this is false (`answer_of_another`). -/
theorem answer_matches_partial {as : List Act} (ha : Alone {} as) {k a : Nat} (h : (k, some a) ∈ (run {} as).calls) : a = k := by
  obtain ⟨n, o, hs⟩ := single_run single_init ha
  rcases hs.calls _ h with e | e
  · cases e
  · exact Option.some.inj e

/-- Two requests, one after the other, with a lost connection. -/
example : Alone {} [.send, .resolved 0 true, .connectEnd 0 true, .take 0, .writeEnd 0 true, .take 0, .answer, .take 0, .send,
      .writeEnd 1 true, .take 1, .lost, .readErr 1, .take 1] ∧
    (run {} [.send, .resolved 0 true, .connectEnd 0 true, .take 0, .writeEnd 0 true, .take 0, .answer, .take 0, .send,
      .writeEnd 1 true, .take 1, .lost, .readErr 1, .take 1]).calls = [(0, some 0), (1, none)] := by
  refine ⟨?_, by decide⟩
  simp only [Alone, St.idle]
  decide

/-- **C67, refuted.** Two requests are written one after the other, and the thread that handles the completion of the second is
faster than the other: the handler of each request is given the answer to the other one. Nothing goes wrong on the network. -/
theorem answer_of_another : ∃ as, (∀ a ∈ as, a.good) ∧ (run {} as).calls = [(1, some 0), (0, some 1)] := by
  refine ⟨[.send, .resolved 0 true, .connectEnd 0 true, .take 0, .send, .writeEnd 0 true, .writeEnd 1 true, .take 1, .take 0,
    .answer, .take 1, .answer, .take 0], ?_, by decide⟩
  simp [Act.good]

/-- Every action changes something. -/
def Effective : St → List Act → Prop
  | _, [] => True
  | s, a :: as => step s a ≠ s ∧ Effective (step s a) as

theorem single_moves {s : St} {n : Nat} {p : Pc} (h : Single s n (some p)) : ∃ a, a.good ∧ a.own ∧ step s a ≠ s := by
  have hat := h.at
  have hf := h.fit
  have ne : ∀ {s' : St} {q : Pc}, s'.reqs = s.reqs.set n q → q ≠ p → s' ≠ s := by
    intro s' q hr hq e
    rw [e] at hr
    have := congrArg (fun l => l[n]?) hr
    simp only [hat, List.getElem?_set, at_lt (s := s) hat] at this
    simp at this
    exact hq this.symm
  have nc : ∀ {s' : St} {c}, s'.calls = s.calls ++ [c] → s' ≠ s := by
    intro s' c hc e
    rw [e] at hc
    have := congrArg List.length hc
    simp at this
  have tk : step s (.take n) = stepTake s n := rfl
  cases p with
  | resolve =>
    refine ⟨.resolved n true, rfl, ⟨by simp, by simp⟩, fun e => ?_⟩
    have : (step s (.resolved n true)).sock = .opening := by
      show (stepResolved s n true).sock = _
      unfold stepResolved
      rw [if_pos hat]; rfl
    rw [e, hf.1] at this
    cases this
  | connect =>
    refine ⟨.connectEnd n true, rfl, ⟨by simp, by simp⟩, fun e => ?_⟩
    have : (step s (.connectEnd n true)).sock = .up := by
      show (stepConnect s n true).sock = _
      unfold stepConnect
      rw [if_pos ⟨hat, hf.1⟩]; rfl
    rw [e, hf.1] at this
    cases this
  | connected ok =>
    refine ⟨.take n, trivial, ⟨by simp, by simp⟩, ?_⟩
    rw [tk]; unfold stepTake; rw [hat]
    cases ok with
    | true =>
      refine ne (q := s.firstOp) rfl ?_
      unfold St.firstOp; split <;> simp
    | false => exact nc (c := (n, none)) rfl
  | write =>
    by_cases hu : s.sock = .up
    · refine ⟨.writeEnd n true, trivial, ⟨by simp, by simp⟩, ?_⟩
      show stepWrite s n true ≠ s
      unfold stepWrite
      rw [if_pos ⟨hat, by simp [hu]⟩]
      exact ne (q := .written true) rfl (by simp)
    · refine ⟨.writeEnd n false, trivial, ⟨by simp, by simp⟩, ?_⟩
      show stepWrite s n false ≠ s
      unfold stepWrite
      rw [if_pos ⟨hat, by simp [hu]⟩]
      exact ne (q := .written false) rfl (by simp)
  | written ok =>
    refine ⟨.take n, trivial, ⟨by simp, by simp⟩, ?_⟩
    rw [tk]; unfold stepTake; rw [hat]
    cases ok with
    | true =>
      show s.startRead n ≠ s
      unfold St.startRead
      split
      · exact ne (q := .gotten none) rfl (by simp)
      · exact ne (q := .read) rfl (by simp)
    | false => exact nc (c := (n, none)) rfl
  | read =>
    have hr : s.readers = [n] := h.readers
    rcases hf with ⟨hu, hw⟩ | ⟨hd, _⟩
    · refine ⟨.answer, trivial, ⟨by simp, by simp⟩, ?_⟩
      show stepAnswer s ≠ s
      unfold stepAnswer
      rw [hr, hw]
      show (if s.sock = .up then _ else _) ≠ _
      rw [if_pos hu]
      exact ne (q := .gotten (some n)) rfl (by simp)
    · refine ⟨.readErr n, trivial, ⟨by simp, by simp⟩, ?_⟩
      show stepReadErr s n ≠ s
      unfold stepReadErr
      rw [if_pos ⟨hat, hd⟩]
      exact ne (q := .gotten none) rfl (by simp)
  | gotten a =>
    refine ⟨.take n, trivial, ⟨by simp, by simp⟩, ?_⟩
    rw [tk]; unfold stepTake; rw [hat]
    cases a with
    | some a => exact nc (c := (n, some a)) rfl
    | none => exact nc (c := (n, none)) rfl
  | done => exact absurd hf id

theorem rank_le (o : Option Pc) : rankOf o ≤ 7 := by
  cases o with
  | none => exact Nat.zero_le _
  | some p => cases p <;> simp [rankOf, Pc.rank]

theorem effective_le {s : St} {n : Nat} {o : Option Pc} (h : Single s n o) {bs : List Act} (ho : ∀ b ∈ bs, b.own)
    (he : Effective s bs) : bs.length ≤ rankOf o := by
  induction bs generalizing s n o with
  | nil => exact Nat.zero_le _
  | cons b bs ih =>
    have hb := ho b (List.mem_cons_self ..)
    have ho' : ∀ c ∈ bs, c.own := fun c hc => ho c (List.mem_cons_of_mem _ hc)
    cases single_step h b fun e => absurd e hb.1 with
    | move o' h' _ _ _ hk =>
      have := ih h' ho' he.2
      have := (hk hb).resolve_left he.1
      rw [List.length_cons]; omega
    | finish r h' _ _ _ hk =>
      have := ih h' ho' he.2
      rw [List.length_cons]
      have h0 : rankOf none = 0 := rfl
      omega

/-- **C66, the end of a request (partial).** As long as a request is sent only when no other is outstanding: while the handler of
a request has not been called, there is something for the client to do, if the network and the server do their work; and after
at most seven steps of the client the handler has been called. Missing: requests sent at the same time, for which this is false
(`request_without_outcome`). -/
theorem request_ends_partial {as : List Act} (ha : Alone {} as) :
    (∀ k, (run {} as).pending k → ∃ a, a.good ∧ a.own ∧ step (run {} as) a ≠ run {} as) ∧
    (∀ bs, (∀ b ∈ bs, b.own) → Effective (run {} as) bs → bs.length ≤ 7) := by
  obtain ⟨n, o, hs⟩ := single_run single_init ha
  refine ⟨fun k ⟨p, hk, hp⟩ => ?_, fun bs ho he => Nat.le_trans (effective_le hs ho he) (rank_le o)⟩
  obtain ⟨_, e⟩ := hs.get hk hp
  subst e
  exact single_moves hs

/-- Seven steps are needed for the first request. -/
example : Effective (run {} [.send]) [.resolved 0 true, .connectEnd 0 true, .take 0, .writeEnd 0 true, .take 0, .answer,
    .take 0] ∧ Alone {} [.send] := by
  simp only [Effective, Alone, St.idle]
  decide

/-- **C66, refuted.** Three requests are sent. The first is written, but its completion is handled late: meanwhile the
connection is lost, the second request finds this out and the third makes a new connection. The first request then reads from the
new connection, and takes the answer to the third. The handler of the third is never called: whatever the client, the network and
the server do, short of losing the connection, nothing changes any more. -/
theorem request_without_outcome : ∃ as, sends as = 3 ∧ (run {} as).calls = [(1, none), (0, some 2)] ∧
    (run {} as).pending 2 ∧ ∀ a, a.own → step (run {} as) a = run {} as := by
  refine ⟨[.send, .resolved 0 true, .connectEnd 0 true, .take 0, .writeEnd 0 true, .send, .lost, .writeEnd 1 false, .take 1,
    .send, .resolved 2 true, .connectEnd 2 true, .take 2, .take 0, .writeEnd 2 true, .take 2, .answer, .take 0], by decide,
    by decide, ⟨.read, by decide, by simp⟩, fun a ha => ?_⟩
  have hr : ∀ (l : List Act) (s : St), run {} l = s → (∀ a, a.own → step s a = s) → ∀ a, a.own → step (run {} l) a = run {} l :=
    fun _ _ e h a ha => by rw [e]; exact h a ha
  refine hr _ ⟨.up, [], [2], [.done, .done, .read], [(1, none), (0, some 2)]⟩ (by decide) (fun a ha => ?_) a ha
  have hg : ∀ (k : Nat) (p : Pc), ([.done, .done, .read] : List Pc)[k]? = some p → p = .done ∨ p = .read := by
    intro k p hp
    have := List.mem_of_getElem? hp
    simpa using this
  cases a with
  | send => exact absurd rfl ha.1
  | lost => exact absurd rfl ha.2
  | resolved k ok =>
    show stepResolved _ _ _ = _
    unfold stepResolved
    rw [if_neg fun e => by have := hg _ _ e; simp at this]
  | connectEnd k ok =>
    show stepConnect _ _ _ = _
    unfold stepConnect
    rw [if_neg fun e => by cases e.2]
  | writeEnd k ok =>
    show stepWrite _ _ _ = _
    unfold stepWrite
    rw [if_neg fun e => by have := hg _ _ e.1; simp at this]
  | answer => rfl
  | readErr k =>
    show stepReadErr _ _ = _
    unfold stepReadErr
    rw [if_neg fun e => by cases e.2]
  | take k =>
    show stepTake _ _ = _
    unfold stepTake
    split <;> first | rfl | (rename_i e; have := hg _ _ e; simp at this)

/-! ## The client recovers (C68) -/

/-- What holds once the network and the server do their work: the calls of the handlers, but for the first one, are answers. -/
def Healing (c0 : List (Nat × Option Nat)) (s : St) (n : Nat) (o : Option Pc) : Prop :=
  Single s n o ∧ ∃ l, s.calls = c0 ++ l ∧ (∀ c ∈ l.drop 1, c.2 = some c.1) ∧
    (s.sock ≠ .dead ∨ s.sock = .dead ∧ Lame o ∧ l = [])

theorem healing_step {c0 : List (Nat × Option Nat)} {s : St} {n : Nat} {o : Option Pc} (h : Healing c0 s n o) {a : Act}
    (hg : a.good) (ha : a = .send → s.idle) : ∃ n' o', Healing c0 (step s a) n' o' := by
  obtain ⟨hs, l, hc, hl, hd⟩ := h
  cases single_step hs a fun e => hs.idle (ha e) with
  | move o' h1 h2 h3 h4 =>
    refine ⟨n, o', h1, l, by rw [h2, hc], hl, ?_⟩
    rcases hd with hd | ⟨hd, hm, he⟩
    · exact .inl (h3 hg hd)
    · exact .inr ⟨(h4 hg hd hm).1, (h4 hg hd hm).2, he⟩
  | finish r h1 h2 h3 h4 =>
    refine ⟨n + 1, none, h1, l ++ [(n, r)], by rw [h2, hc, List.append_assoc], ?_, ?_⟩
    · intro c hm
      rcases hd with hd | ⟨hd, hm', he⟩
      · have hr := (h3 hg hd).1
        cases l with
        | nil => cases hm
        | cons x l =>
          rw [List.cons_append, List.drop_succ_cons, List.drop_zero, List.mem_append, List.mem_singleton] at hm
          rcases hm with hm | hm
          · exact hl c hm
          · rw [hm, hr]
      · subst he; cases hm
    · rcases hd with hd | ⟨hd, hm', he⟩
      · exact .inl (h3 hg hd).2
      · exact .inl (h4 hg hd hm')

theorem healing_run {c0 : List (Nat × Option Nat)} {s : St} {n : Nat} {o : Option Pc} (h : Healing c0 s n o) {bs : List Act}
    (hg : ∀ b ∈ bs, b.good) (hb : Alone s bs) : ∃ n' o', Healing c0 (run s bs) n' o' := by
  induction bs generalizing s n o with
  | nil => exact ⟨n, o, h⟩
  | cons b bs ih =>
    obtain ⟨n', o', h'⟩ := healing_step h (hg b (List.mem_cons_self ..)) hb.1
    exact ih h' (fun c hc => hg c (List.mem_cons_of_mem _ hc)) hb.2

/-- **C68 (partial).** Requests are sent one at a time. Whatever has happened before: once no request is outstanding and from then
on names are resolved, connections are made and not lost, at most the next request fails. All later requests that end are
answered. Missing: the next request itself can fail (`next_request_fails`), and two requests sent at the same time can
(`two_requests_one_fails`). -/
theorem one_failure_partial {as bs : List Act} (ha : Alone {} as) (hi : (run {} as).idle) (hb : Alone (run {} as) bs)
    (hg : ∀ b ∈ bs, b.good) :
    ∃ l, (run {} (as ++ bs)).calls = (run {} as).calls ++ l ∧ ∀ c ∈ l.drop 1, c.2 = some c.1 := by
  obtain ⟨n, o, hs⟩ := single_run single_init ha
  have ho := hs.idle hi
  subst ho
  have h0 : Healing (run {} as).calls (run {} as) n none :=
    ⟨hs, [], (List.append_nil _).symm, fun c hc => (by cases hc), by
      by_cases hd : (run {} as).sock = .dead
      · exact .inr ⟨hd, .inl rfl, rfl⟩
      · exact .inl hd⟩
  obtain ⟨_, _, _, l, h1, h2, _⟩ := healing_run h0 hg hb
  exact ⟨l, by rw [run_append]; exact h1, h2⟩

/-- **C68, refuted.** The server cannot be reached when the first request is sent. Although the server is there for the second
request, the request fails too: the socket has been left open and is not connected. The third is answered. -/
theorem next_request_fails : ∃ as bs, Alone {} as ∧ (run {} as).idle ∧ Alone (run {} as) bs ∧ (∀ b ∈ bs, b.good) ∧
    (run {} as).calls = [(0, none)] ∧ (run {} (as ++ bs)).calls = [(0, none), (1, none), (2, some 2)] := by
  refine ⟨[.send, .resolved 0 true, .connectEnd 0 false, .take 0], [.send, .writeEnd 1 false, .take 1, .send, .resolved 2 true,
    .connectEnd 2 true, .take 2, .writeEnd 2 true, .take 2, .answer, .take 2], ?_, ?_, ?_, ?_, by decide, by decide⟩
  · simp only [Alone, St.idle]; decide
  · simp only [St.idle]; decide
  · simp only [Alone, St.idle]; decide
  · simp [Act.good]

/-- **C68, refuted.** Two requests are sent before there is a connection. Each makes one, the second closes the first, and the
first request fails although nothing is wrong with the network or the server. -/
theorem two_requests_one_fails : ∃ as, (∀ a ∈ as, a.good) ∧ (run {} as).calls = [(0, none), (1, some 1)] := by
  refine ⟨[.send, .send, .resolved 0 true, .resolved 1 true, .take 0, .connectEnd 1 true, .take 1, .writeEnd 1 true, .take 1,
    .answer, .take 1], ?_, by decide⟩
  simp [Act.good]

end Cs.Client
