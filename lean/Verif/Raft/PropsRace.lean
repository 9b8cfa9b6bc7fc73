import Verif.Raft.Role
import Verif.Raft.PropsApi

/-!
# The leader role, and calls of `replicate_log` (C58, C65)

A leader stays leader until it moves to a later term. `replicate_log` asks for the role, reads the term and appends the entry
without the mutex of the server (raft_server.cxx 1082-1093): the handlers of other threads can run between these steps.
-/

namespace Cs.Raft
open Cs

/-- A running server handles inputs one after the other; `none` if the process ends. Exceptions of the language do not end
it. -/
def Srv.serve (s : Srv) : List Input → Option Srv
  | [] => some s
  | x :: xs => match x.run { s with trace := [] } with
    | (.ok _, s') => s'.serve xs
    | (.error .thrown, s') => s'.serve xs
    | _ => none

theorem Srv.serve_stay : ∀ (xs : List Input) {s s' : Srv}, s.serve xs = some s' → (∀ x ∈ xs, x.isJoin = false) → Stay s s'
  | [], s, s', h, _ => by cases h; exact stayPo.refl s
  | x :: xs, s, s', h, hx => by
    have h0 : Stay s { s with trace := [] } := Stay.calm rfl rfl
    have h1 := rl_run x (hx x (List.mem_cons_self ..)) { s with trace := [] }
    have h2 : ∀ {a : Srv}, a.serve xs = some s' → Stay a s' :=
      fun ha => Srv.serve_stay xs ha fun y hy => hx y (List.mem_cons_of_mem _ hy)
    unfold Srv.serve at h
    have h3 : ∀ {a : Srv}, Stay { s with trace := [] } a → a.serve xs = some s' → Stay s s' :=
      fun ha he => stayPo.trans h0 (stayPo.trans ha (h2 he))
    have h1 : Stay { s with trace := [] } (x.run { s with trace := [] }).2 := h1
    rcases hr : x.run { s with trace := [] } with ⟨e | u, t⟩
    · rw [hr] at h h1
      cases e with
      | thrown => exact h3 h1 h
      | exit c => cases h
      | ub => cases h
    · rw [hr] at h h1
      exact h3 h1 h

/-! ## C65 -/

/-- C65, without invitations to join: whatever a running leader handles, its term does not fall, and it is leader as long as
its term is the same.

Missing: invitations to join, where it fails, `join_deposes_leader`. -/
theorem leader_stays_partial (s s' : Srv) (xs : List Input) (hl : s.role = .leader) (h : s.serve xs = some s')
    (hx : ∀ x ∈ xs, x.isJoin = false) : s.term ≤ s'.term ∧ (s'.term = s.term → s'.role = .leader) :=
  ⟨(Srv.serve_stay xs h hx).1, (Srv.serve_stay xs h hx).2 hl⟩

/-- A server that has just been started for the first time. -/
def started : Srv := boot 1 {} Env.plain (Node.fresh conf3).disk

/-- What makes it the leader of term 1, with the first entry acknowledged by the others. -/
def toLead : List Input := [.electionTimeout, voteRespOf 2 1 true, appendRespOf 2 1 2, appendRespOf 3 1 2, appendRespOf 2 1 2,
  appendRespOf 3 1 2]

/-- What a server that handles inputs comes to can be checked by evaluation. -/
theorem serve_check {s : Srv} {xs : List Input} {P : Srv → Bool}
    (h : (match s.serve xs with | some s' => P s' | none => false) = true) : ∃ s', s.serve xs = some s' ∧ P s' = true := by
  rcases hs : s.serve xs with _ | s'
  · rw [hs] at h; cases h
  · rw [hs] at h; exact ⟨s', rfl, h⟩

/-- A leader that handles a request of a client, an expiry of a heartbeat timer, and a vote request of its own term. -/
example : ∃ s s', started.serve toLead = some s ∧ s.role = .leader ∧ s.term = 1 ∧
    s.serve [cliReq 7, .hbTimeout 2, .req (voteReqOf 3 1 0 0)] = some s' ∧ s'.term = 1 ∧ s'.role = .leader := by
  obtain ⟨s, h, hp⟩ := serve_check (s := started) (xs := toLead)
    (P := fun s => decide (s.role = .leader ∧ s.term = 1) &&
      (match s.serve [cliReq 7, .hbTimeout 2, .req (voteReqOf 3 1 0 0)] with
        | some s' => decide (s'.term = 1 ∧ s'.role = .leader)
        | none => false)) (by decide +kernel)
  rw [Bool.and_eq_true] at hp
  obtain ⟨s', h', hp'⟩ := serve_check (P := fun s' => decide (s'.term = 1 ∧ s'.role = .leader)) hp.2
  exact ⟨s, s', h, (of_decide_eq_true hp.1).1, (of_decide_eq_true hp.1).2, h', of_decide_eq_true hp'⟩

/-- C65 fails with invitations to join: the leader of term 1 becomes a follower in term 1. -/
theorem join_deposes_leader : ∃ s s', started.serve toLead = some s ∧ s.role = .leader ∧ s.term = 1 ∧
    s.serve [.req (joinReqOf 2 1)] = some s' ∧ s'.term = 1 ∧ s'.role = .follower := by
  obtain ⟨s, h, hp⟩ := serve_check (s := started) (xs := toLead)
    (P := fun s => decide (s.role = .leader ∧ s.term = 1) &&
      (match s.serve [.req (joinReqOf 2 1)] with
        | some s' => decide (s'.term = 1 ∧ s'.role = .follower)
        | none => false)) (by decide +kernel)
  rw [Bool.and_eq_true] at hp
  obtain ⟨s', h', hp'⟩ := serve_check (P := fun s' => decide (s'.term = 1 ∧ s'.role = .follower)) hp.2
  exact ⟨s, s', h, (of_decide_eq_true hp.1).1, (of_decide_eq_true hp.1).2, h', of_decide_eq_true hp'⟩

/-! ## C58 -/

/-- A call of `replicate_log` by a thread of the application, raft_server.cxx 1080-1100: in state `s0` the server says that it is
leader; other threads handle `xs`; the entry is made with the term of state `s1`; other threads handle `ys`; the entry is appended
in state `s2`; other threads handle `zs`; append requests are sent in state `s3`. -/
structure Call (d : Nat) (s0 : Srv) (xs : List Input) (s1 : Srv) (e : Entry) (ys : List Input) (s2 : Srv) (zs : List Input)
    (s3 : Srv) : Prop where
  asked : ∃ s, isLeader s0 = (.ok true, s) ∧ s.serve xs = some s1
  made : e = ⟨s1.term, .app d⟩
  before : s1.serve ys = some s2
  after : (logAppend e s2).2.serve zs = some s3

/-- If nothing happens in between, this is `replicateLog`. -/
theorem call_alone {d : Nat} {s0 s1 s2 s3 : Srv} {e : Entry} (h : Call d s0 [] s1 e [] s2 [] s3) :
    replicateLog d s0 = (do requestAppendAll; pure false : R Bool) s3 := by
  obtain ⟨⟨s, h1, h2⟩, h3, h4, h5⟩ := h
  cases h2; cases h4; cases h5; cases h3
  unfold replicateLog
  rw [run_bind_ok h1, if_pos rfl, bind_get]
  rfl

/-- C58, for calls between whose steps the server does not move to a later term, and without invitations to join: the server is
leader when the entry is made, when it is appended and when it is sent, and the entry has its term.

Missing: calls between whose steps the term changes, where it fails, `follower_appends` and `older_term_appended`. -/
theorem replicate_log_as_leader_partial {d : Nat} {s0 s1 s2 s3 : Srv} {e : Entry} {xs ys zs : List Input}
    (h : Call d s0 xs s1 e ys s2 zs s3) (hx : ∀ x ∈ xs ++ ys ++ zs, x.isJoin = false) (ht : s3.term = s0.term) :
    s1.role = .leader ∧ s2.role = .leader ∧ s3.role = .leader ∧ e = ⟨s0.term, .app d⟩ ∧ s2.term = s0.term := by
  obtain ⟨⟨s, h1, h2⟩, h3, h4, h5⟩ := h
  have hl : s0.role = .leader := is_leader_role (by rw [h1])
  have a1 : Stay s0 s := by
    have := rl_isLeader s0
    have h : Stay s0 (isLeader s0).2 := this
    rw [h1] at h; exact h
  have a2 := Srv.serve_stay xs h2 fun x hm => hx x (List.mem_append_left _ (List.mem_append_left _ hm))
  have a3 := Srv.serve_stay ys h4 fun x hm => hx x (List.mem_append_left _ (List.mem_append_right _ hm))
  have a4 : Stay s2 (logAppend e s2).2 := rl_logAppend e s2
  have a5 := Srv.serve_stay zs h5 fun x hm => hx x (List.mem_append_right _ hm)
  have b1 := stayPo.trans a1 a2
  have b2 := stayPo.trans b1 a3
  have b3 := stayPo.trans a4 a5
  have e2 : s2.term = s0.term := Nat.le_antisymm (ht ▸ b3.1) b2.1
  have e1 : s1.term = s0.term := Nat.le_antisymm (e2 ▸ a3.1) b1.1
  have r2 := b2.2 hl e2
  exact ⟨b1.2 hl e1, r2, b3.2 r2 (ht.trans e2.symm), by rw [h3, e1], e2⟩

/-- The leader of term 2 sends the second entry. -/
def newLeader : Input := .req (appendReqOf 2 2 1 1 [⟨2, .app 9⟩] 1)

/-- An append request of server 1 with term 2. -/
def sentAs (j : Int) : Req :=
  { type := .appendReq, term := 2, src := 1, dst := j, lastTerm := 1, lastIdx := 1, commitIdx := 1,
    entries := [⟨2, .app 9⟩, ⟨2, .app 7⟩] }

/-- Make a call, by evaluation: the states in which the entry is appended and sent. -/
def Srv.call (d : Nat) (s0 : Srv) (xs ys zs : List Input) : Option (Srv × Entry × Srv × Srv) :=
  match isLeader s0 with
  | (.ok true, s) => match s.serve xs with
    | some s1 => match s1.serve ys with
      | some s2 => match (logAppend ⟨s1.term, .app d⟩ s2).2.serve zs with
        | some s3 => some (s1, ⟨s1.term, .app d⟩, s2, s3)
        | none => none
      | none => none
    | none => none
  | _ => none

theorem call_check {d : Nat} {s0 : Srv} {xs ys zs : List Input} {P : Entry → Srv → Srv → Bool}
    (h : (match s0.call d xs ys zs with | some (_, e, s2, s3) => P e s2 s3 | none => false) = true) :
    ∃ s1 e s2 s3, Call d s0 xs s1 e ys s2 zs s3 ∧ P e s2 s3 = true := by
  rcases hc : s0.call d xs ys zs with _ | ⟨s1, e, s2, s3⟩
  · rw [hc] at h; cases h
  · rw [hc] at h
    refine ⟨s1, e, s2, s3, ?_, h⟩
    unfold Srv.call at hc
    rcases h1 : isLeader s0 with ⟨f | b, s⟩
    · rw [h1] at hc; cases hc
    · rw [h1] at hc
      cases b with
      | false => cases hc
      | true =>
        simp only [] at hc
        rcases h2 : s.serve xs with _ | t1
        · rw [h2] at hc; cases hc
        · rw [h2] at hc
          simp only [] at hc
          rcases h3 : t1.serve ys with _ | t2
          · rw [h3] at hc; cases hc
          · rw [h3] at hc
            simp only [] at hc
            rcases h4 : (logAppend ⟨t1.term, .app d⟩ t2).2.serve zs with _ | t3
            · rw [h4] at hc; cases hc
            · rw [h4] at hc
              cases hc
              exact ⟨⟨s, h1, h2⟩, rfl, h3, h4⟩

/-- C58 fails: the leader of term 1 says that it leads. Before the entry is made, the server hears of the leader of term 2 and
follows it. Then it appends an entry of its own with term 2, which the leader of term 2 does not have, and sends it to the other
servers, as if it were the leader of term 2. -/
theorem follower_appends : ∃ s0 s1 e s2 s3, started.serve toLead = some s0 ∧ s0.role = .leader ∧ s0.term = 1 ∧
    Call 7 s0 [newLeader] s1 e [] s2 [] s3 ∧ s2.role = .follower ∧ s2.term = 2 ∧ s2.leader = 2 ∧
    s3.log.ents = s2.log.ents ++ [⟨2, .app 7⟩] ∧
    Eff.send (sentAs 2) ∈ (requestAppendAll { s3 with trace := [] }).2.trace ∧
    Eff.send (sentAs 3) ∈ (requestAppendAll { s3 with trace := [] }).2.trace := by
  obtain ⟨s0, h0, hp⟩ := serve_check (s := started) (xs := toLead)
    (P := fun s0 => decide (s0.role = .leader ∧ s0.term = 1) && (match s0.call 7 [newLeader] [] [] with
      | some (_, _, s2, s3) => decide (s2.role = .follower ∧ s2.term = 2 ∧ s2.leader = 2 ∧
          s3.log.ents = s2.log.ents ++ [(⟨2, .app 7⟩ : Entry)] ∧
          Eff.send (sentAs 2) ∈ (requestAppendAll { s3 with trace := [] }).2.trace ∧
          Eff.send (sentAs 3) ∈ (requestAppendAll { s3 with trace := [] }).2.trace)
      | none => false)) (by decide +kernel)
  rw [Bool.and_eq_true] at hp
  obtain ⟨s1, e, s2, s3, hc, hq⟩ := call_check (P := fun _ s2 s3 => decide (_ ∧ _)) hp.2
  obtain ⟨h1, h2, h3, h4, h5⟩ := of_decide_eq_true hq
  exact ⟨s0, s1, e, s2, s3, h0, (of_decide_eq_true hp.1).1, (of_decide_eq_true hp.1).2, hc, h1, h2, h3, h4, h5⟩

/-- The leader of a term, when it gets such a request, ends its process. -/
theorem append_of_own_term_kills (L : Srv) (r : Req) (hr : r.type = .appendReq) (hl : L.role = .leader) (ht : r.term = L.term) :
    (Input.run (.req r) L).1 = .error (.exit (-1)) := by
  show ((processReq r >>= fun resp => emit (.reply resp)) L).1 = _
  have hh : L.heard r = { L with stepsToDown := if 0 < L.stepsToDown then 2 else L.stepsToDown } := by
    unfold Srv.heard
    rw [if_pos (.inl hr), if_neg (by omega)]
  have h1 : processReq r L = (.error (.exit (-1)), (die (α := Unit) (-1) (L.heard r)).2) := by
    rw [run_processReq]
    unfold dispatch
    rw [hr]
    show handleAppendEntries r (L.heard r) = _
    unfold handleAppendEntries
    have h2 : hearLeader r (L.heard r) = die (-1) (L.heard r) := by
      rw [hh]
      unfold hearLeader
      rw [bind_get, if_pos ht]
      show (match L.role with
        | .candidate => becomeFollower
        | .leader => die (-1)
        | .follower => restartElectionTimer : R Unit) _ = _
      rw [hl]
    have h3 : die (α := Unit) (-1) (L.heard r) = (.error (.exit (-1)), (die (α := Unit) (-1) (L.heard r)).2) := by
      rw [run_die]
    rw [run_bind_err (h2.trans h3)]
  rw [run_bind_err h1]

/-- C58 fails: the entry is made while the server leads term 1; before it is appended, the server follows the leader of term 2 and
gets an entry of term 2. The entry of term 1 is appended behind it. -/
theorem older_term_appended : ∃ s0 s1 e s2 s3, started.serve toLead = some s0 ∧ s0.role = .leader ∧ s0.term = 1 ∧
    Call 7 s0 [] s1 e [newLeader] s2 [] s3 ∧ s2.role = .follower ∧ s2.term = 2 ∧
    s3.log.ents.map Entry.term = [1, 2, 1] := by
  obtain ⟨s0, h0, hp⟩ := serve_check (s := started) (xs := toLead)
    (P := fun s0 => decide (s0.role = .leader ∧ s0.term = 1) && (match s0.call 7 [] [newLeader] [] with
      | some (_, _, s2, s3) => decide (s2.role = .follower ∧ s2.term = 2 ∧ s3.log.ents.map Entry.term = [1, 2, 1])
      | none => false)) (by decide +kernel)
  rw [Bool.and_eq_true] at hp
  obtain ⟨s1, e, s2, s3, hc, hq⟩ := call_check (P := fun _ s2 s3 => decide (_ ∧ _)) hp.2
  obtain ⟨h1, h2, h3⟩ := of_decide_eq_true hq
  exact ⟨s0, s1, e, s2, s3, h0, (of_decide_eq_true hp.1).1, (of_decide_eq_true hp.1).2, hc, h1, h2, h3⟩

/-- The hypotheses of `replicate_log_as_leader_partial` can be met: a request of a client is handled between the steps. -/
example : ∃ s0 s1 e s2 s3, started.serve toLead = some s0 ∧ Call 7 s0 [] s1 e [cliReq 5] s2 [.hbTimeout 2] s3 ∧
    s3.term = s0.term := by
  obtain ⟨s0, h0, hp⟩ := serve_check (s := started) (xs := toLead)
    (P := fun s0 => (match s0.call 7 [] [cliReq 5] [.hbTimeout 2] with
      | some (_, _, _, s3) => decide (s3.term = s0.term)
      | none => false)) (by decide +kernel)
  obtain ⟨s1, e, s2, s3, hc, hq⟩ := call_check (P := fun _ _ s3 => decide (_ = _)) hp
  exact ⟨s0, s1, e, s2, s3, h0, hc, of_decide_eq_true hq⟩

end Cs.Raft
