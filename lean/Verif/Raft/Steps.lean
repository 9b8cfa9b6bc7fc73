import Verif.Raft.Frame

/-!
# Closed forms of the handlers without loops
-/

namespace Cs.Raft
open Cs

/-- `restart_election_timer`. -/
def Srv.rearmed (s : Srv) : Srv := { s with armed := s.armed || !s.catchingUp }

theorem run_restart (s : Srv) : restartElectionTimer s = (.ok ⟨⟩, s.rearmed) := by
  unfold restartElectionTimer Srv.rearmed
  rw [bind_get]
  rcases s with ⟨⟩
  rename_i cu _ _ a _ _ _ _ _ _ _ _ _ _ _ _ _ _ _ _ _
  cases cu <;> cases a <;> rfl

/-- `become_follower`. -/
def Srv.stepDown (s : Srv) : Srv :=
  { s with
    prevote := none, peers := s.peers.map disableHb, srvToJoin := none, role := .follower,
    armed := s.armed || !s.catchingUp, trace := s.trace ++ [.event .becomeFollower] }

theorem run_becomeFollower (s : Srv) : becomeFollower s = (.ok ⟨⟩, s.stepDown) := by
  unfold becomeFollower
  rw [bind_modify, bind_modify, bind_modify, bind_modify, run_bind_ok (run_restart _)]
  rfl

/-- `update_term` with a larger term. -/
def Srv.newTerm (s : Srv) (t : Nat) : Srv :=
  Srv.stepDown { s with
    term := t, vote := -1, electionCompleted := false, votesGranted := 0, voted := [],
    trace := s.trace ++ [.saveState t (-1)] }

theorem run_updateTerm_gt {s : Srv} {t : Nat} (h : s.term < t) : updateTerm t s = (.ok true, s.newTerm t) := by
  unfold updateTerm
  rw [bind_get, if_pos h, bind_modify, bind_modify, bind_saveState, run_bind_ok (run_becomeFollower _)]
  rfl

theorem run_updateTerm_le {s : Srv} {t : Nat} (h : t ≤ s.term) : updateTerm t s = (.ok false, s) := by
  unfold updateTerm
  rw [bind_get, if_neg (by omega)]
  rfl

/-- The state after the term of a request has been looked at. -/
def Srv.heard (s : Srv) (r : Req) : Srv :=
  if r.type = .appendReq ∨ r.type = .voteReq ∨ r.type = .snpReq then
    if s.term < r.term then { s.newTerm r.term with stepsToDown := if 0 < s.stepsToDown then 2 else s.stepsToDown }
    else { s with stepsToDown := if 0 < s.stepsToDown then 2 else s.stepsToDown }
  else s

theorem run_hearTerm (s : Srv) (r : Req) : hearTerm r s = (.ok ⟨⟩, s.heard r) := by
  unfold hearTerm Srv.heard
  by_cases h : r.type = .appendReq ∨ r.type = .voteReq ∨ r.type = .snpReq
  · rw [if_pos h, if_pos h]
    by_cases ht : s.term < r.term
    · rw [run_bind_ok (run_updateTerm_gt ht), if_pos ht]; rfl
    · rw [run_bind_ok (run_updateTerm_le (by omega)), if_neg ht]; rfl
  · rw [if_neg h, if_neg h]; rfl

theorem run_processReq (s : Srv) (r : Req) : processReq r s = dispatch r (s.heard r) := by
  unfold processReq
  rw [run_bind_ok (run_hearTerm s r)]

theorem heard_log (s : Srv) (r : Req) : (s.heard r).log = s.log := by
  unfold Srv.heard; split
  · split <;> rfl
  · rfl
theorem heard_id (s : Srv) (r : Req) : (s.heard r).id = s.id := by
  unfold Srv.heard; split
  · split <;> rfl
  · rfl
theorem heard_smSnap (s : Srv) (r : Req) : (s.heard r).smSnap = s.smSnap := by
  unfold Srv.heard; split
  · split <;> rfl
  · rfl
theorem heard_quickCommit (s : Srv) (r : Req) : (s.heard r).quickCommit = s.quickCommit := by
  unfold Srv.heard; split
  · split <;> rfl
  · rfl
theorem heard_term {s : Srv} {r : Req} (h : r.type = .appendReq ∨ r.type = .voteReq ∨ r.type = .snpReq) :
    (s.heard r).term = max s.term r.term := by
  unfold Srv.heard
  rw [if_pos h]
  split
  · show r.term = _; omega
  · show s.term = _; omega
theorem heard_vote {s : Srv} {r : Req} (h : r.type = .appendReq ∨ r.type = .voteReq ∨ r.type = .snpReq) :
    (s.heard r).vote = if s.term < r.term then -1 else s.vote := by
  unfold Srv.heard
  rw [if_pos h]
  split <;> rfl
/-- A request of a term that is not larger changes nothing but the countdown of a leaving server. -/
theorem heard_stale {s : Srv} {r : Req} (h : r.term ≤ s.term) :
    s.heard r = s ∨ s.heard r = { s with stepsToDown := if 0 < s.stepsToDown then 2 else s.stepsToDown } := by
  unfold Srv.heard
  split
  · rw [if_neg (by omega)]; exact .inr rfl
  · exact .inl rfl

theorem run_handleVoteReq (r : Req) (s : Srv) :
    handleVoteReq r s =
      if r.term = s.term ∧ upToDate r s.log = true ∧ (s.vote = r.src ∨ s.vote = -1) then
        (.ok { type := .voteResp, term := s.term, src := s.id, dst := r.src, nextIdx := s.log.next, accepted := true },
          { s with vote := r.src, trace := s.trace ++ [.saveState s.term r.src] })
      else (.ok { type := .voteResp, term := s.term, src := s.id, dst := r.src }, s) := by
  unfold handleVoteReq
  rw [bind_get]
  split <;> rfl

end Cs.Raft
