import Verif.Raft.Indep
import Verif.Raft.PropsApi

/-!
# Several servers in one process (C110)

`is_leader` keeps the time since it last heard from a majority in a static variable (raft_server.cxx 1055): there is one for all servers of
a process. `Raft/Model.lean` gives each server a variable of its own (`Srv.elapsed`). Here servers share it.
-/

namespace Cs.Raft
open Cs

/-! ## The model -/

/-- A server that sees the given value in the variable. -/
def Node.el (e : Int) (n : Node) : Node := ⟨n.disk, n.up.map (Srv.el e)⟩

/-- Servers in one process: the variable, initially `std::numeric_limits<int32>::max()` (1055), and the servers by number. -/
structure Proc where
  static : Int := 2 ^ 31 - 1
  srv : Nat → Node

/-- Server `k` is `n` now. -/
def Proc.set (p : Proc) (k : Nat) (n : Node) : Nat → Node := fun j => if j = k then n else p.srv j

/-- The variable after a step of a server: the value that the server left there. Starting and destroying a server do not touch it. -/
def Proc.after (p : Proc) (x : Option Input) (n : Node) : Int := match x, n.up with
  | some _, some s => s.elapsed
  | _, _ => p.static

/-- One server makes a step of its own (`Node.Step`) with the value in the variable. The end of a server here means that the object is
destroyed. Simplification: also after a part of the effects of a handler, although the others go on. -/
inductive Proc.Step (cs : Nat → Setup) : Proc → Nat → Option Input → List Eff → Proc → Prop
  | step {p : Proc} {k : Nat} {x : Option Input} {es : List Eff} {n : Node} :
      Node.Step (cs k) ((p.srv k).el p.static) x es n → Step cs p k x es ⟨p.after x n, p.set k n⟩

/-- Executions: who handled what, and the effects, in order. -/
inductive Proc.Exec (cs : Nat → Setup) (p0 : Proc) : List (Nat × Option Input) → List (Nat × Eff) → Proc → Prop
  | nil : Exec cs p0 [] [] p0
  | step {p1 p2 : Proc} {as : List (Nat × Option Input)} {fx : List (Nat × Eff)} {k : Nat} {x : Option Input} {es : List Eff} :
      Exec cs p0 as fx p1 → Step cs p1 k x es p2 → Exec cs p0 (as ++ [(k, x)]) (fx ++ es.map (Prod.mk k)) p2

/-! ## Specification -/

/-- The inputs of server `k`. -/
def inputsOf (k : Nat) (as : List (Nat × Option Input)) : List Input := as.filterMap fun a => if a.1 = k then a.2 else none

/-- The effects of server `k`. -/
def effectsOf (k : Nat) (fx : List (Nat × Eff)) : List Eff := fx.filterMap fun a => if a.1 = k then some a.2 else none

/-- Equal up to the variable. -/
def Node.Same (a b : Node) : Prop := a.el 0 = b.el 0

/-! ## Proofs -/

theorem inputsOf_snoc (k j : Nat) (x : Option Input) (as : List (Nat × Option Input)) :
    inputsOf k (as ++ [(j, x)]) = inputsOf k as ++ (if j = k then x.toList else []) := by
  unfold inputsOf
  rw [List.filterMap_append]
  congr 1
  by_cases h : j = k
  · cases x <;> simp [h]
  · simp [h]

theorem effectsOf_same (k : Nat) (fx : List (Nat × Eff)) (es : List Eff) :
    effectsOf k (fx ++ es.map (Prod.mk k)) = effectsOf k fx ++ es := by
  unfold effectsOf
  rw [List.filterMap_append]
  congr 1
  induction es with
  | nil => rfl
  | cons e es ih => 
    have h : ∀ l : List (Nat × Eff), ((k, e) :: l).filterMap (fun a => if a.1 = k then some a.2 else none) =
        e :: l.filterMap (fun a => if a.1 = k then some a.2 else none) := fun l => by simp
    rw [List.map_cons, h, ih]

theorem effectsOf_other {k j : Nat} (h : j ≠ k) (fx : List (Nat × Eff)) (es : List Eff) :
    effectsOf k (fx ++ es.map (Prod.mk j)) = effectsOf k fx := by
  unfold effectsOf
  rw [List.filterMap_append]
  have : (es.map (Prod.mk j)).filterMap (fun a : Nat × Eff => if a.1 = k then some a.2 else none) = [] := by
    rw [List.filterMap_eq_nil_iff]
    intro a ha
    obtain ⟨e, _, rfl⟩ := List.mem_map.1 ha
    exact if_neg h
  rw [this, List.append_nil]

theorem el_el (a b : Int) (s : Srv) : (s.el b).el a = s.el a := rfl

theorem el_self (s : Srv) : s.el s.elapsed = s := rfl

theorem Node.Same.trans {a b c : Node} (h1 : a.Same b) (h2 : b.Same c) : a.Same c := Eq.trans h1 h2

theorem Node.Same.symm {a b : Node} (h : a.Same b) : b.Same a := Eq.symm h

theorem Node.same_el (e : Int) (n : Node) : (n.el e).Same n := by
  obtain ⟨d, _ | s⟩ := n <;> rfl

/-- Two servers that are equal up to the variable make the same steps, unless they are asked. -/
theorem Node.Step.same {c : Setup} {a b a' : Node} {x : Option Input} {es : List Eff} (h : a.Step c x es a') (hs : a.Same b)
    (hx : ∀ y, x = some y → y.asks = false) : ∃ b', b.Step c x es b' ∧ a'.Same b' := by
  obtain ⟨bd, bu⟩ := b
  have key : ∀ {s t : Srv} {y : Input}, y.asks = false → s.el 0 = t.el 0 → 
      y.run { t with trace := [] } = ((y.run { s with trace := [] }).1, (y.run { s with trace := [] }).2.el t.elapsed) := by
    intro s t y hy e
    have h1 := in_run y hy t.elapsed { s with trace := [] }
    have h2 : ({ s with trace := [] } : Srv).el t.elapsed = { t with trace := [] } := by
      have := congrArg (fun u : Srv => ({ u with trace := [] } : Srv).el t.elapsed) e
      exact this
    rw [h2] at h1
    exact h1
  cases h with
  | @run d s s' y hr =>
    cases bu with
    | none => cases hs
    | some t =>
      have e1 : d = bd := congrArg Node.disk hs
      have e2 : s.el 0 = t.el 0 := Option.some.inj (congrArg Node.up hs)
      have h1 := key (hx y rfl) e2
      rw [hr] at h1
      subst e1
      exact ⟨_, Node.Step.run (s' := s'.el t.elapsed) h1, rfl⟩
  | @survive d s s' y hr =>
    cases bu with
    | none => cases hs
    | some t =>
      have e1 : d = bd := congrArg Node.disk hs
      have e2 : s.el 0 = t.el 0 := Option.some.inj (congrArg Node.up hs)
      have h1 := key (hx y rfl) e2
      rw [hr] at h1
      subst e1
      exact ⟨_, Node.Step.survive (s' := s'.el t.elapsed) h1, rfl⟩
  | @crash d s y es hp =>
    cases bu with
    | none => cases hs
    | some t =>
      have e1 : d = bd := congrArg Node.disk hs
      have e2 : s.el 0 = t.el 0 := Option.some.inj (congrArg Node.up hs)
      have h1 := key (hx y rfl) e2
      subst e1
      refine ⟨_, Node.Step.crash (s := t) (x := y) (es := es) ?_, rfl⟩
      rw [h1]
      exact hp
  | @boot d =>
    cases bu with
    | some t => cases hs
    | none =>
      have e1 : d = bd := congrArg Node.disk hs
      subst e1
      exact ⟨_, Node.Step.boot, rfl⟩

theorem Hist.other {c : Setup} {n n' : Node} {xs : List Input} {fx : List Eff} (h : Hist c n xs fx n') :
    Hist c n (xs ++ []) fx n' := by rw [List.append_nil]; exact h

/-- C110, `_partial`: whatever the other servers of the process do, a server that gets no requests of clients and for which
`replicate_log` is not called does what it can do alone in its process, with the same effects. Missing: servers that are asked, see
`asked_server_alone_partial` and `borrowed_majority`. -/
theorem unasked_server_alone_partial {cs : Nat → Setup} {p0 p : Proc} {as : List (Nat × Option Input)} {fx : List (Nat × Eff)} {k : Nat}
    (h : Proc.Exec cs p0 as fx p) (ha : ∀ x ∈ inputsOf k as, x.asks = false) :
    ∃ n, Hist (cs k) (p0.srv k) (inputsOf k as) (effectsOf k fx) n ∧ n.Same (p.srv k) := by
  induction h with
  | nil => exact ⟨_, .nil, rfl⟩
  | @step p1 p2 as fx j x es h hs ih =>
    rw [inputsOf_snoc] at ha ⊢
    obtain ⟨n, h1, h2⟩ := ih fun y hy => ha y (List.mem_append_left _ hy)
    cases hs with
    | @step n' hn =>
      by_cases hj : j = k
      · subst hj
        rw [if_pos rfl] at ha ⊢
        rw [effectsOf_same]
        obtain ⟨b, h3, h4⟩ := hn.same ((Node.same_el _ _).trans h2.symm) fun y hy =>
          ha y (List.mem_append_right _ (by rw [hy]; exact List.mem_singleton.2 rfl))
        refine ⟨b, h1.step h3, h4.symm.trans ?_⟩
        show n'.Same (if j = j then n' else p1.srv j)
        rw [if_pos rfl]
        rfl
      · rw [if_neg hj, effectsOf_other hj]
        refine ⟨n, h1.other, ?_⟩
        show n.Same (if k = j then n' else p1.srv k)
        rw [if_neg fun e => hj e.symm]
        exact h2

/-- A server that is not asked leaves the variable alone. -/
theorem Node.Step.keeps {c : Setup} {a a' : Node} {x : Option Input} {es : List Eff} (h : a.Step c x es a') {e : Int}
    (he : ∀ s, a.up = some s → s.elapsed = e) (hx : ∀ y, x = some y → y.asks = false) :
    ∀ y s, x = some y → a'.up = some s → s.elapsed = e := by
  have key : ∀ {s : Srv} {y : Input}, y.asks = false → (y.run { s with trace := [] }).2.elapsed = s.elapsed := by
    intro s y hy
    have h1 := in_run y hy s.elapsed { s with trace := [] }
    have h2 : ({ s with trace := [] } : Srv).el s.elapsed = { s with trace := [] } := rfl
    rw [h2] at h1
    have := congrArg (fun r : Except Fault Unit × Srv => r.2.elapsed) h1
    exact this
  cases h with
  | @run d s s' y hr =>
    intro _ s1 _ h2
    cases h2
    have h1 := key (s := s) (hx y rfl)
    rw [hr] at h1
    exact h1.trans (he s rfl)
  | @survive d s s' y hr =>
    intro _ s1 _ h2
    cases h2
    have h1 := key (s := s) (hx y rfl)
    rw [hr] at h1
    exact h1.trans (he s rfl)
  | crash _ => intro _ _ _ h2; cases h2
  | boot => intro _ _ h1; cases h1

/-- C110, `_partial`: if no other server of the process is asked, a server does what it can do alone, with the same effects and the same
answers, from its start to its end. Missing: a second server that is asked, see `borrowed_majority`; a server that is started again in the
process sees the value its predecessor has left. -/
theorem asked_server_alone_partial {cs : Nat → Setup} {p0 p : Proc} {as : List (Nat × Option Input)} {fx : List (Nat × Eff)} {k : Nat}
    (h : Proc.Exec cs p0 as fx p) (h0 : ∀ s, (p0.srv k).up = some s → s.elapsed = p0.static) (hb : (k, none) ∉ as)
    (ha : ∀ j x, (j, some x) ∈ as → j ≠ k → x.asks = false) :
    Hist (cs k) (p0.srv k) (inputsOf k as) (effectsOf k fx) (p.srv k) := by
  have key : Hist (cs k) (p0.srv k) (inputsOf k as) (effectsOf k fx) (p.srv k) ∧ 
      ∀ s, (p.srv k).up = some s → s.elapsed = p.static := by
    induction h with
    | nil => exact ⟨.nil, h0⟩
    | @step p1 p2 as fx j x es h hs ih =>
      rw [inputsOf_snoc]
      obtain ⟨h1, h2⟩ := ih (fun hm => hb (List.mem_append_left _ hm)) fun j x hm => ha j x (List.mem_append_left _ hm)
      have hl : (j, x) ∈ as ++ [(j, x)] := List.mem_append_right _ (List.mem_singleton.2 rfl)
      cases hs with
      | @step n' hn =>
        by_cases hj : j = k
        · subst hj
          rw [if_pos rfl, effectsOf_same]
          have e1 : (p1.srv j).el p1.static = p1.srv j := by
            rcases hp : p1.srv j with ⟨d, _ | s⟩
            · rfl
            · have := h2 s (by rw [hp])
              show Node.mk d (some (s.el p1.static)) = _
              rw [← this]
              rfl
          rw [e1] at hn
          have e2 : (⟨p1.after x n', p1.set j n'⟩ : Proc).srv j = n' := if_pos rfl
          rw [e2]
          refine ⟨h1.step hn, fun s hs => ?_⟩
          cases x with
          | none => exact absurd hl hb
          | some y =>
            show s.elapsed = p1.after (some y) n'
            unfold Proc.after
            rw [hs]
        · rw [if_neg hj, effectsOf_other hj]
          have e2 : (⟨p1.after x n', p1.set j n'⟩ : Proc).srv k = p1.srv k := if_neg fun e => hj e.symm
          rw [e2]
          refine ⟨h1.other, fun s hs => (h2 s hs).trans ?_⟩
          have h3 := hn.keeps (e := p1.static) (fun s hs => by
            obtain ⟨t, _, rfl⟩ := Option.map_eq_some_iff.1 hs; rfl) (fun y hy => ha j y (hy ▸ hl) hj)
          show p1.static = p1.after x n'
          unfold Proc.after
          cases x with
          | none => rfl
          | some y =>
            rcases hu : n'.up with _ | t
            · rfl
            · exact (h3 y t rfl hu).symm
  exact key.1

/-! ## The violation -/

/-- The bound of `is_leader` for the server, twice the upper election timeout. -/
def Proc.Found (cs : Nat → Setup) (p : Proc) : Prop := ∀ k, p.static ≤ (cs k).params.electionUpper * 2

/-- Servers have the parameters they were made with. -/
def Proc.Made (cs : Nat → Setup) (p : Proc) : Prop := ∀ k s, (p.srv k).up = some s → s.params = (cs k).params

theorem Proc.Step.found {cs : Nat → Setup} {p p' : Proc} {k : Nat} {x : Option Input} {es : List Eff} (h : Proc.Step cs p k x es p')
    (h1 : p.Found cs) (h2 : p.Made cs) : p'.Found cs ∧ p'.Made cs := by
  letI : HbSlow fun _ _ => True := { same := fun _ _ _ => trivial, base := fun _ => trivial, slow := fun _ => trivial }
  cases h with
  | @step n hn =>
    have key : ∀ s, n.up = some s → s.params = (cs k).params ∧ ∀ y, x = some y → s.elapsed = p.static := by
      have h3 : ∀ {d : Disk} {s : Srv} {y : Input}, (p.srv k).el p.static = ⟨d, some s⟩ →
          (y.run { s with trace := [] }).2.params = (cs k).params ∧ (y.run { s with trace := [] }).2.elapsed = p.static := by
        intro d s y e
        have e := congrArg Node.up e
        obtain ⟨t, ht, rfl⟩ := Option.map_eq_some_iff.1 e
        have hp : t.params = (cs k).params := h2 k t ht
        have h4 := sf_run (K := fun _ _ => True) y { t.el p.static with trace := [] }
        refine ⟨h4.params.trans hp, ?_⟩
        rcases h4.elapsed with e | e
        · exact e
        · have e : t.params.electionUpper * 2 < p.static := e
          rw [hp] at e
          have := h1 k
          omega
      generalize hm : (p.srv k).el p.static = m at hn
      cases hn with
      | @run d s s' y hr =>
        intro _ hs
        cases hs
        have h4 := h3 (y := y) hm
        rw [hr] at h4
        exact ⟨h4.1, fun _ _ => h4.2⟩
      | @survive d s s' y hr =>
        intro _ hs
        cases hs
        have h4 := h3 (y := y) hm
        rw [hr] at h4
        exact ⟨h4.1, fun _ _ => h4.2⟩
      | crash _ => intro _ hs; cases hs
      | boot => intro _ hs; cases hs; exact ⟨rfl, fun _ h => (by cases h)⟩
    refine ⟨fun j => ?_, fun j s hs => ?_⟩
    · have : p.after x n = p.static := by
        unfold Proc.after
        cases x with
        | none => rfl
        | some y =>
          rcases hu : n.up with _ | t
          · rfl
          · exact (key t hu).2 y rfl
      show p.after x n ≤ _
      rw [this]
      exact h1 j
    · have hs : (if j = k then n else p.srv j).up = some s := hs
      by_cases hj : j = k
      · rw [if_pos hj] at hs
        rw [hj]
        exact (key s hs).1
      · rw [if_neg hj] at hs
        exact h2 j s hs

/-- C110 fails, in general: after a call of `is_leader` by any server of the process has found a majority (for the bounds of all servers),
no server of the process, present or future, looks at the answers of its members again: `is_leader` gives the role. -/
theorem majority_found_for_all {cs : Nat → Setup} {p0 p : Proc} {as : List (Nat × Option Input)} {fx : List (Nat × Eff)}
    (h : Proc.Exec cs p0 as fx p) (h1 : p0.Found cs) (h2 : p0.Made cs) {k : Nat} {s : Srv} (hs : (p.srv k).up = some s) :
    (isLeader (s.el p.static)).1 = .ok (decide (s.role = .leader)) := by
  have key : p.Found cs ∧ p.Made cs := by
    clear hs
    induction h with
    | nil => exact ⟨h1, h2⟩
    | step _ hs ih => exact hs.found ih.1 ih.2
  have e := key.2 k s hs
  have h3 := key.1 k
  have hc : ¬((s.el p.static).role = .leader ∧ 0 < (s.el p.static).peers.length ∧
      (s.el p.static).params.electionUpper * 2 < (s.el p.static).elapsed) := fun hc => by
    have : s.params.electionUpper * 2 < p.static := hc.2.2
    rw [e] at this
    omega
  unfold isLeader
  rw [bind_get, if_neg hc]
  rfl

/-! ## Concrete executions -/

/-- `none` starts the server. -/
def moveOf : Option Input → Move
  | some y => .go y
  | none => .start

/-- Run a script. -/
def Proc.play (cs : Nat → Setup) (p : Proc) (fx : List (Nat × Eff)) : List (Nat × Option Input) → Option (Proc × List (Nat × Eff))
  | [] => some (p, fx)
  | (k, x) :: as => match ((p.srv k).el p.static).act (cs k) (moveOf x) with
    | some (n, es) => Proc.play cs ⟨p.after x n, p.set k n⟩ (fx ++ es.map (Prod.mk k)) as
    | none => none

theorem Proc.play_exec {cs : Nat → Setup} {p0 : Proc} : ∀ {as bs : List (Nat × Option Input)} {p p' : Proc} {fx fx' : List (Nat × Eff)},
    Proc.Exec cs p0 bs fx p → p.play cs fx as = some (p', fx') → Proc.Exec cs p0 (bs ++ as) fx' p'
  | [], bs, p, p', fx, fx', h, hp => by cases hp; rw [List.append_nil]; exact h
  | (k, x) :: as, bs, p, p', fx, fx', h, hp => by
    unfold Proc.play at hp
    rcases ha : ((p.srv k).el p.static).act (cs k) (moveOf x) with _ | ⟨n, es⟩
    · rw [ha] at hp; cases hp
    · rw [ha] at hp
      obtain ⟨y, hy, hs⟩ := Node.act_step ha
      have e : y = x := by cases x <;> cases y <;> simp_all [moveOf, Move.input]
      subst e
      have := Proc.play_exec (h.step (.step hs)) hp
      rwa [List.append_assoc] at this

/-- Two servers, the servers 1 of two clusters of three. -/
def twoSetups : Nat → Setup := fun _ => node1

/-- Both have never run. -/
def twoFresh : Proc := { srv := fun _ => Node.fresh conf3 }

/-- Both are elected at 1000 ms. Then the members of the second one fall silent. At 1001000 ms a member answers the first one, which gets
a request of a client. -/
def twoScript : List (Nat × Option Input) :=
  [(0, none), (1, none), (0, some (.tick 1000)), (1, some (.tick 1000)), (0, some .electionTimeout), (1, some .electionTimeout),
   (0, some (voteRespOf 2 1 true)), (1, some (voteRespOf 2 1 true)), (0, some (.tick 1001000)), (1, some (.tick 1001000)),
   (0, some (voteRespOf 2 1 true)), (0, some (cliReq 7))]

/-- What is to be checked at the end. -/
def twoCheck (p : Proc) : Bool := match (p.srv 1).up with
  | some s => decide (s.role = .leader ∧ ¬s.HeardMajority ∧ (isLeader (s.el p.static)).1.toOption = some true ∧
      (isLeader s).1.toOption = some false ∧ s.elapsed = 2 ^ 31 - 1 ∧ p.static ≤ 600)
  | none => false

theorem ok_of_toOption {r : Except Fault Bool} {b : Bool} (h : r.toOption = some b) : r = .ok b := by
  rcases r with e | c
  · cases h
  · cases h; rfl

/-- C110 fails: a leader whose members have all been silent for 1000 s says that it leads, because another server of the process has
been asked before, whose members answer. Alone it says that it does not lead. -/
theorem borrowed_majority : ∃ p fx s, Proc.Exec twoSetups twoFresh twoScript fx p ∧ (p.srv 1).up = some s ∧
    (∀ x ∈ inputsOf 1 twoScript, x.asks = false) ∧ s.role = .leader ∧ ¬s.HeardMajority ∧
    (isLeader (s.el p.static)).1 = .ok true ∧ (isLeader (s.el (2 ^ 31 - 1))).1 = .ok false ∧ p.Found twoSetups := by
  have h0 : ∃ p fx, twoFresh.play twoSetups [] twoScript = some (p, fx) ∧ twoCheck p = true := by
    have : (match twoFresh.play twoSetups [] twoScript with
      | some (p, _) => twoCheck p
      | none => false) = true := by decide +kernel
    rcases hp : twoFresh.play twoSetups [] twoScript with _ | ⟨p, fx⟩
    · rw [hp] at this; cases this
    · rw [hp] at this; exact ⟨p, fx, rfl, this⟩
  obtain ⟨p, fx, hp, hc⟩ := h0
  unfold twoCheck at hc
  rcases hs : (p.srv 1).up with _ | s
  · rw [hs] at hc; cases hc
  · rw [hs] at hc
    obtain ⟨c1, c2, c3, c4, c5, c6⟩ := of_decide_eq_true hc
    refine ⟨p, fx, s, Proc.play_exec .nil hp, hs, ?_, c1, c2, ok_of_toOption c3, ?_, fun k => c6⟩
    · intro x hx
      have : inputsOf 1 twoScript = [.tick 1000, .electionTimeout, voteRespOf 2 1 true, .tick 1001000] := rfl
      rw [this] at hx
      simp only [List.mem_cons, List.not_mem_nil, or_false] at hx
      rcases hx with rfl | rfl | rfl | rfl <;> rfl
    · rw [← c5]
      exact ok_of_toOption c4

/-- Both have just been started. -/
def twoStarted : Proc := { srv := fun _ => ⟨(Node.fresh conf3).disk, some (boot 1 {} Env.plain (Node.fresh conf3).disk)⟩ }

/-- The hypotheses of `asked_server_alone_partial` can be met, with a request that is accepted. -/
example : ∃ p fx, Proc.Exec twoSetups twoStarted (twoScript.drop 2) fx p ∧
    (∀ s, (twoStarted.srv 0).up = some s → s.elapsed = twoStarted.static) ∧ (0, none) ∉ twoScript.drop 2 ∧
    (∀ j x, (j, some x) ∈ twoScript.drop 2 → j ≠ 0 → x.asks = false) ∧ cliReq 7 ∈ inputsOf 0 (twoScript.drop 2) ∧
    ∃ r, .reply r ∈ effectsOf 0 fx ∧ r.accepted = true := by
  have h0 : ∃ p fx, twoStarted.play twoSetups [] (twoScript.drop 2) = some (p, fx) ∧
      ((effectsOf 0 fx).any fun e => match e with
        | .reply r => r.accepted
        | _ => false) = true := by
    have : (match twoStarted.play twoSetups [] (twoScript.drop 2) with
      | some (_, fx) => (effectsOf 0 fx).any fun e => match e with
        | .reply r => r.accepted
        | _ => false
      | none => false) = true := by decide +kernel
    rcases hp : twoStarted.play twoSetups [] (twoScript.drop 2) with _ | ⟨p, fx⟩
    · rw [hp] at this; cases this
    · rw [hp] at this; exact ⟨p, fx, rfl, this⟩
  obtain ⟨p, fx, hp, hc⟩ := h0
  obtain ⟨e, he, h2⟩ := List.any_eq_true.1 hc
  refine ⟨p, fx, Proc.play_exec .nil hp, ?_, ?_, ?_, ?_, ?_⟩
  · intro s hs; cases hs; rfl
  · intro hm
    simp [twoScript] at hm
  · intro j x hm hj
    simp only [twoScript, List.drop, List.mem_cons, Prod.mk.injEq, Option.some.injEq, List.not_mem_nil, or_false] at hm
    rcases hm with h | h | h | h | h | h | h | h | h | h <;> obtain ⟨rfl, rfl⟩ := h <;> first | rfl | exact absurd rfl hj
  · exact List.mem_append_right [.tick 1000, .electionTimeout, voteRespOf 2 1 true, .tick 1001000, voteRespOf 2 1 true] (List.mem_singleton.2 rfl)
  · cases e with
    | reply r => exact ⟨r, he, h2⟩
    | _ => cases h2

end Cs.Raft
