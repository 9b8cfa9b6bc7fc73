import Verif.Cluster.Calm
import Verif.Cluster.Witness

/-!
# Servers that stop by themselves
-/

namespace Cs.Raft
open Cs Cs.Raft.Witness

variable {C : Cluster} {w : World} {i : Int} {s : Srv} {x : Input}

/-- C45, partial. If nothing unusual reaches a server (no timer expiry that was queued before the timer was stopped, no
positive answer to a request of an earlier term of the same leader), then every input is handled to its end: the process is
not ended, no exception leaves the handler, and the behaviour is defined. What is missing: both unusual inputs do occur, see
`shutdown_late_timer` and `shutdown_late_answer`. -/
theorem runs_to_end_partial (hC : C.Ok) (hw : C.Calm w) (hi : i ∈ C.ids) (hs : (w.node i).up = some s)
    (hd : Deliver w.evs i x) (hu : C.Usual i s x) : ∃ s', x.run { s with trace := [] } = (.ok ⟨⟩, s') := by
  obtain ⟨ps, g, h⟩ := hw.reach.inv hC
  have hm := h.member hC hi
  obtain ⟨g1, _⟩ := (h.linked.nodes i hi).up s hs
  obtain ⟨s', h1, _⟩ := fit_run g1.still (g1.still.fit (hw.next hC i hi s hs)) (h.linked.allowed hC h.safe.logs.votes hd)
    (h.smooth hC hi hs hd hu)
  exact ⟨s', h1⟩

/-- Server 1 has been elected, has appended a command, has been replaced by server 3 without noticing, and gets an append
request of the new leader. -/
example : ∃ C : Cluster, C.Ok ∧ ∃ w, C.Calm w ∧ 1 ∈ C.ids ∧ ∃ s m, (w.node 1).up = some s ∧ s.role = .leader ∧
    m.type = .appendReq ∧ s.term < m.term ∧ Deliver w.evs 1 (.req m) ∧ C.Usual 1 s (.req m) := by
  obtain ⟨w, h, hp⟩ := World.calm (C := trio) (opening 1 ++ [.client 1 7, .election 3, .recv 35, .back 35 39])
    (fun w => (match (w.node 1).up with
      | some s => decide (s.role = .leader) && decide (s.term < 2)
      | none => false) && (match w.evs[42]? with
      | some ev => (match ev.eff with | .send m => decide (m.type = .appendReq) && decide (m.term = 2) && decide (m.dst = 1) | _ => false)
      | none => false)) (by decide +kernel)
  rw [Bool.and_eq_true] at hp
  obtain ⟨h1, h2⟩ := hp
  split at h1
  · rename_i s hs
    split at h2
    · rename_i ev he
      split at h2
      · rename_i m hm
        rw [Bool.and_eq_true, decide_eq_true_eq, decide_eq_true_eq] at h1
        rw [Bool.and_eq_true, Bool.and_eq_true, decide_eq_true_eq, decide_eq_true_eq, decide_eq_true_eq] at h2
        exact ⟨trio, trio_ok, w, h, by decide, s, m, hs, h1.1, h2.1.1, by omega,
          .request (List.mem_of_getElem? he) hm h2.2, trivial⟩
      · cases h2
    · cases h2
  · cases h1

/-- C45, partial. In all executions: a handler that does not run to its end is one of a leader, and what it stumbles over is the
expiry of its own election timer, the heartbeat timer of a peer it does not have, or a peer that is believed to have entries
behind the end of the leader's log (because of an answer that arrives, or of an earlier one). Followers and candidates never
stop, and no leader ever gets an append request of its own term. -/
theorem stop_cause_partial (hC : C.Ok) (hr : C.Reach w) (hi : i ∈ C.ids) (hs : (w.node i).up = some s)
    (hd : Deliver w.evs i x) {f : Fault} {s' : Srv} (hf : x.run { s with trace := [] } = (.error f, s')) :
    s.role = .leader ∧ (x = .electionTimeout ∨ (∃ k, x = .hbTimeout k ∧ ∀ p ∈ s.peers, p.id ≠ k) ∨
      (∃ p ∈ s.peers, s.log.next < p.nextIdx) ∨
      ∃ ty r, x = .peerResp ty r ∧ r.type = .appendResp ∧ r.accepted = true ∧ r.term ≠ s.term ∧ s.log.next < r.nextIdx) := by
  obtain ⟨ps, g, h⟩ := hr.inv hC
  have hm := h.member hC hi
  obtain ⟨g1, _⟩ := (h.linked.nodes i hi).up s hs
  have ha := h.linked.allowed hC h.safe.logs.votes hd
  by_cases hn : s.role = .leader → NextOk s
  · by_cases hx : Rough { s with trace := [] } x
    · cases x with
      | req m => exact absurd hx.2.2 (h.no_rival hC hi hs hx.2.1 hd hx.1)
      | peerResp ty r =>
        obtain ⟨h1, h2, h3, h4⟩ := hx
        refine ⟨h3, .inr (.inr (.inr ⟨ty, r, rfl, h1, h2, fun h5 => ?_, h4⟩))⟩
        have := h.answer_le hC hi hs h3 hd h1 h2 h5
        have h4 : s.log.next < r.nextIdx := h4
        omega
      | electionTimeout => exact ⟨hx, .inl rfl⟩
      | hbTimeout k =>
        exact ⟨hx.1, .inr (.inl ⟨k, rfl, fun p hp he => hx.2 (List.mem_map.2 ⟨p, hp, he⟩)⟩)⟩
      | _ => exact absurd hx id
    · obtain ⟨s1, h1, _⟩ := fit_run g1.still (g1.still.fit hn) ha hx
      rw [h1] at hf
      cases hf
  · have hl : s.role = .leader := Classical.byContradiction fun h => hn fun h' => absurd h' h
    refine ⟨hl, .inr (.inr (.inl ?_))⟩
    refine Classical.byContradiction fun hno => hn fun _ p hp => ?_
    rcases Nat.lt_or_ge s.log.next p.nextIdx with h | h
    · exact absurd ⟨p, hp, h⟩ hno
    · exact h

/-- Not C45. The election timer of a server expires, and before the expiry is handled the server is elected: it ends its own
process. -/
theorem shutdown_late_timer : ∃ C : Cluster, C.Ok ∧ ∃ w, C.Reach w ∧ ∃ ev ∈ w.evs, ev.eff = .exit (-1) ∧
    ev.cause = some .electionTimeout := by
  obtain ⟨w, h, hp⟩ := World.witness (C := trio) (opening 1 ++ [.election 1])
    (fun w => decide ((⟨1, some .electionTimeout, .exit (-1)⟩ : Ev) ∈ w.evs)) (by decide +kernel)
  exact ⟨trio, trio_ok, w, h, _, of_decide_eq_true hp, rfl, rfl⟩

/-- Is it a positive answer of term 3? -/
private def old3 : Option Input → Bool
  | some (.peerResp _ r) => r.accepted && decide (r.term = 3)
  | _ => false

/-- Not C45. A positive answer to a request of an earlier term arrives after the same server has been elected again, with a
log that is shorter than it was when the request was sent: the leader of term 5 ends its own process. -/
theorem shutdown_late_answer : ∃ C : Cluster, C.Ok ∧ ∃ w, C.Reach w ∧ ∃ ev ∈ w.evs, ev.eff = .exit (-1) ∧
    (∃ ty r, ev.cause = some (.peerResp ty r) ∧ r.accepted = true ∧ r.term = 3) ∧
    ∃ ev' ∈ w.evs, ev'.node = ev.node ∧ ev'.eff = .lead 5 := by
  obtain ⟨w, h, hp⟩ := World.witness (C := trio) (opening 1 ++ again ++ [.back 63 68])
    (fun w => w.did 1 (.lead 5) && w.evs.any fun ev => decide (ev.node = 1) && (decide (ev.eff = .exit (-1)) && old3 ev.cause))
    (by decide +kernel)
  rw [Bool.and_eq_true, List.any_eq_true] at hp
  obtain ⟨h1, ev, h2, h3⟩ := hp
  rw [Bool.and_eq_true, Bool.and_eq_true, decide_eq_true_eq, decide_eq_true_eq] at h3
  obtain ⟨a, a1, a2, a3⟩ := World.did_mem h1
  refine ⟨trio, trio_ok, w, h, ev, h2, h3.2.1, ?_, a, a1, a2.trans h3.1.symm, a3⟩
  have h4 := h3.2.2
  unfold old3 at h4
  split at h4
  · rename_i ty r hc
    rw [Bool.and_eq_true, decide_eq_true_eq] at h4
    exact ⟨ty, r, hc, h4⟩
  · cases h4

/-- Both meet the hypotheses of `stop_cause_partial`: the process of a leader ends. -/
example : ∃ C : Cluster, C.Ok ∧ ∃ w, C.Reach w ∧ 1 ∈ C.ids ∧ ∃ s, (w.node 1).up = some s ∧ Deliver w.evs 1 .electionTimeout ∧
    (Input.run .electionTimeout { s with trace := [] }).1 = .error (.exit (-1)) := by
  obtain ⟨w, h, hp⟩ := World.witness (C := trio) (opening 1)
    (fun w => match (w.node 1).up with
      | some s => (match Input.run .electionTimeout { s with trace := [] } with
        | (.error (.exit c), _) => decide (c = -1)
        | _ => false)
      | none => false) (by decide +kernel)
  split at hp
  · rename_i s hs
    refine ⟨trio, trio_ok, w, h, by decide, s, hs, .election, ?_⟩
    split at hp
    · rename_i c s' hr
      rw [hr, of_decide_eq_true hp]
    · cases hp
  · cases hp

end Cs.Raft
