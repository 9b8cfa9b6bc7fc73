import Verif.Cluster.Finish

/-!
# A cluster of one server can always make progress
-/

namespace Cs.Raft
open Cs

variable {C : Cluster} {M : List Int} {w w' : World} {S S' : Int → Srv} {b k : Int}

/-- What a leader without peers has done: its commit index is at the end of its log. -/
structure RulesAlone (s s' : Srv) : Prop where
  role : s'.role = .leader
  log : s'.log = s.log
  term : s'.term = s.term
  applied : s'.smCommit = s.smCommit
  peers : s'.peers = []
  quick : s.log.next - 1 ≤ s'.quickCommit
  trace : s.trace <+: s'.trace

theorem rule_run {s : Srv} (h1 : s.peers = []) (h2 : s.role = .leader) : ∃ s', requestAppendAll s = (.ok ⟨⟩, s') ∧ RulesAlone s s' := by
  unfold requestAppendAll
  rw [bind_get, if_pos h1]
  unfold commit
  rw [bind_get]
  by_cases h : s.quickCommit < s.log.next - 1
  · rw [if_pos h, bind_modify, bind_emit, if_pos h2, bind_peerIds]
    have : (List.map Peer.id s.peers) = [] := by rw [h1]; rfl
    refine ⟨{ s with quickCommit := s.log.next - 1, trace := s.trace ++ [.advance (s.log.next - 1)] }, ?_, h2, rfl, rfl, rfl, h1, Nat.le_refl _, List.prefix_append _ _⟩
    show forEach commitNotify (List.map Peer.id s.peers) _ = _
    rw [this]; rfl
  · rw [if_neg h]
    exact ⟨s, rfl, h2, rfl, rfl, rfl, h1, by omega, List.prefix_rfl⟩

theorem conf_run (s : Srv) : ∃ s', initialConf s = (.ok ⟨⟩, s') ∧ s'.role = s.role ∧ s'.peers = s.peers ∧ s'.smCommit = s.smCommit ∧
    s'.log.start = s.log.start ∧ s.log.next ≤ s'.log.next ∧ s'.log.next ≤ s.log.next + 1 := by
  unfold initialConf
  rw [bind_get]
  by_cases h : s.config.logIdx = 0
  · rw [if_pos h]
    refine ⟨_, rfl, rfl, rfl, rfl, rfl, ?_, ?_⟩
    · show _ ≤ (s.log.append _).next
      rw [Log.next_append]; omega
    · show (s.log.append _).next ≤ _
      rw [Log.next_append]; exact Nat.le_refl _
  · rw [if_neg h]
    exact ⟨s, rfl, rfl, rfl, rfl, rfl, Nat.le_refl _, Nat.le_succ _⟩

/-- A server without peers that is leader. -/
structure Sole (s s' : Srv) : Prop where
  role : s'.role = .leader
  peers : s'.peers = []
  applied : s'.smCommit = s.smCommit
  next : s.log.next ≤ s'.log.next
  size : s'.log.next ≤ s.log.next + 1

theorem sole_leader {s : Srv} (h1 : s.peers = []) : ∃ s', becomeLeader s = (.ok ⟨⟩, s') ∧ Sole s s' := by
  unfold becomeLeader
  have e0 : stopElectionTimer s = (.ok ⟨⟩, { s with armed := false }) := rfl
  rw [run_bind_ok e0, bind_get, bind_modify, bind_emit, bind_modify, bind_modify, bind_peerIds]
  generalize hs1 : ({ s with armed := false, role := .leader, trace := s.trace ++ [.lead s.term], leader := s.id, srvToJoin := none } : Srv) = s1
  have g1 : s1.peers = [] := by rw [← hs1]; exact h1
  have e1 : forEach leaderPeer (s1.peers.map Peer.id) s1 = (.ok ⟨⟩, s1) := by rw [g1]; rfl
  obtain ⟨s2, e2, c1, c2, c3, c4, c5, c6⟩ := conf_run s1
  obtain ⟨s3, e3, d⟩ := rule_run (s := { s2 with trace := s2.trace ++ [.event .becomeLeader] }) (c2.trans g1) (c1.trans (by rw [← hs1]))
  refine ⟨s3, ?_, d.role, d.peers, d.applied.trans (c3.trans (by rw [← hs1])), ?_, ?_⟩
  · have e4 : (forEach leaderPeer (s1.peers.map Peer.id) >>= fun _ => initialConf >>= fun _ => emit (.event .becomeLeader) >>= fun _ => requestAppendAll) s1 =
        (.ok ⟨⟩, s3) := by
      rw [run_bind_ok e1, run_bind_ok e2, bind_emit]; exact e3
    rw [← hs1] at e4 ⊢
    exact e4
  · rw [d.log]
    show s.log.next ≤ s2.log.next
    have : s1.log = s.log := by rw [← hs1]
    rw [this] at c5; exact c5
  · rw [d.log]
    show s2.log.next ≤ _
    have : s1.log = s.log := by rw [← hs1]
    rw [this] at c6; exact c6

theorem sole_timeout {s : Srv} (h1 : s.role ≠ .leader) (h2 : s.stepsToDown = 0) (h3 : s.catchingUp = false) (h4 : s.peers = [])
    (h5 : s.params.prevote = false) : ∃ s', Input.electionTimeout.run { s with trace := [] } = (.ok ⟨⟩, s') ∧ Sole s s' := by
  show ∃ s', handleElectionTimeout _ = _ ∧ _
  unfold handleElectionTimeout
  rw [bind_modify, bind_get, if_neg (show ¬ 0 < s.stepsToDown by omega),
    if_neg (show ¬ s.catchingUp = true by rw [h3]; exact Bool.false_ne_true), if_neg (show ¬ s.role = .leader from h1),
    if_neg (show ¬ (s.params.prevote = true ∧ s.role = .follower) by rw [h5]; exact fun h => Bool.false_ne_true h.1)]
  unfold becomeCandidate
  have e1 : startTerm { s with trace := [], armed := false } = (.ok ⟨⟩, { s with
      trace := [.saveState (s.term + 1) (-1)], armed := false, prevote := none, term := s.term + 1, vote := -1, role := .candidate,
      votesGranted := 0, voted := [], electionCompleted := false }) := rfl
  rw [run_bind_ok e1]
  unfold requestVote
  have e2 : voteSelf { s with
      trace := [.saveState (s.term + 1) (-1)], armed := false, prevote := none, term := s.term + 1, vote := -1, role := .candidate,
      votesGranted := 0, voted := [], electionCompleted := false } = (.ok ⟨⟩, { s with
      trace := [.saveState (s.term + 1) (-1), .saveState (s.term + 1) s.id], armed := false, prevote := none, term := s.term + 1,
      vote := s.id, role := .candidate, votesGranted := 1, voted := [s.id], electionCompleted := false }) := rfl
  obtain ⟨s3, e3, d⟩ := sole_leader (s := { s with
      trace := [.saveState (s.term + 1) (-1), .saveState (s.term + 1) s.id], armed := false, prevote := none, term := s.term + 1,
      vote := s.id, role := .candidate, votesGranted := 1, voted := [s.id], electionCompleted := true }) h4
  have e5 : askForVotes { s with
      trace := [.saveState (s.term + 1) (-1), .saveState (s.term + 1) s.id], armed := false, prevote := none, term := s.term + 1,
      vote := s.id, role := .candidate, votesGranted := 1, voted := [s.id], electionCompleted := false } = (.ok ⟨⟩, s3) := by
    unfold askForVotes
    rw [bind_get, if_pos (by show (s.peers.length + 1) / 2 < 1; rw [h4]; exact Nat.zero_lt_one), bind_modify]
    exact e3
  rw [run_bind_ok ((run_bind_ok e2).trans e5)]
  refine ⟨s3, ?_, d.role, d.peers, d.applied, d.next, d.size⟩
  unfold rearm
  rw [bind_get, if_neg (fun h => h d.role)]
  rfl

theorem sole_client {s : Srv} (h1 : s.role = .leader) (h2 : s.peers = []) (d : Nat) :
    ∃ s', (Input.req (command d)).run { s with trace := [] } = (.ok ⟨⟩, s') ∧ s'.role = .leader ∧ s'.term = s.term ∧
      s'.log = s.log.append ⟨s.term, .app d⟩ ∧ s'.smCommit = s.smCommit ∧ s.log.next ≤ s'.quickCommit ∧
      ∃ r, .reply r ∈ s'.trace ∧ r.accepted = true ∧ r.nextIdx = s.log.next + 1 := by
  show ∃ s', (processReq (command d) >>= fun a => emit (.reply a)) _ = _ ∧ _
  have e2 : processReq (command d) { s with trace := [] } = handleCliReq (command d) { s with trace := [] } := by
    rw [run_processReq]; rfl
  have e1 : isLeader { s with trace := [] } = (.ok true, { s with trace := [] }) := by
    unfold isLeader
    rw [bind_get, if_neg (fun h => by have := h.2.1; rw [h2] at this; exact absurd this (by decide))]
    show (Except.ok (decide (s.role = .leader)), _) = _
    rw [h1]; rfl
  obtain ⟨s3, e3, g⟩ := rule_run (s := { s with log := s.log.append ⟨s.term, .app d⟩, trace := [.append ⟨s.term, .app d⟩, .preCommit s.log.next ⟨s.term, .app d⟩] }) h2 h1
  have e4 : handleCliReq (command d) { s with trace := [] } =
      (.ok { type := .appendResp, term := s.term, src := s.id, dst := s.leader, nextIdx := s3.log.next, accepted := true }, s3) := by
    unfold handleCliReq
    rw [run_bind_ok e1, bind_get, if_neg (fun h => Bool.false_ne_true h.2.symm), if_neg (fun h => Bool.false_ne_true h.symm)]
    have e5 : appendClient (command d).entries { s with trace := [] } = (.ok ⟨⟩, { s with log := s.log.append ⟨s.term, .app d⟩, trace := [.append ⟨s.term, .app d⟩, .preCommit s.log.next ⟨s.term, .app d⟩] }) := rfl
    rw [run_bind_ok e5, run_bind_ok e3]
    rfl
  rw [run_bind_ok (e2.trans e4)]
  have hq := g.quick
  have hn := Log.next_append s.log ⟨s.term, .app d⟩
  refine ⟨_, rfl, g.role, g.term, g.log, g.applied, ?_, _, List.mem_append_right _ (List.mem_singleton.2 rfl), rfl, ?_⟩
  · show s.log.next ≤ s3.quickCommit
    have hq : (s.log.append ⟨s.term, .app d⟩).next - 1 ≤ s3.quickCommit := hq
    rw [hn] at hq
    exact hq
  · show s3.log.next = _
    rw [g.log]; exact hn

end Cs.Raft
