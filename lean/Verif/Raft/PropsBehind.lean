import Verif.Raft.PropsAnnounce

/-!
# A server that reports `logs_catch_up` without the entries (C116)

`Verif/Conc/PropsCatchUp.lean` has the commit thread. Here a history of a server that comes to the state in which the thread reports
although the server knows of committed entries that it has not got.
-/

namespace Cs.Raft
open Cs

/-- The test of line 888 of src/raft_server.cxx: the commit thread calls `on_event(raft_event::logs_catch_up)`. -/
def Srv.reports (s : Srv) : Bool := decide (s.quickCommit ≤ s.smCommit) || decide (s.log.next - 1 ≤ s.smCommit)

/-- The test of line 888 is the negation of the test of line 911. -/
theorem reports_iff (s : Srv) : s.reports = true ↔ s.canApply = false := by
  unfold Srv.reports Srv.canApply
  rw [Bool.or_eq_true, decide_eq_true_eq, decide_eq_true_eq, Bool.and_eq_false_iff, decide_eq_false_iff_not, decide_eq_false_iff_not]
  omega

/-- The leader has five committed entries and sends the first two of them. -/
def sendsTwo : Input := .req (appendReqOf 2 5 0 0 [⟨5, .app 7⟩, ⟨5, .app 8⟩] 5)

/-- C116 fails: a server that is several requests behind the leader has stored and applied two entries; it knows that five are
committed and reports that it has caught up. -/
theorem behind_reports : ∃ n fx s, Hist node1 (Node.fresh conf3) [sendsTwo, .apply, .apply] fx n ∧ n.up = some s ∧
    s.reports = true ∧ s.smCommit = 2 ∧ s.quickCommit = 5 := by
  obtain ⟨⟨d, up⟩, fx, h, hp⟩ := Node.witness (c := node1) (n := Node.fresh conf3) [.start, .go sendsTwo, .go .apply, .go .apply]
    (fun n _ => match n.up with
      | some s => s.reports && decide (s.smCommit = 2) && decide (s.quickCommit = 5)
      | none => false) (by decide +kernel)
  rcases up with _ | s
  · cases hp
  change (s.reports && decide (s.smCommit = 2) && decide (s.quickCommit = 5)) = true at hp
  simp only [Bool.and_eq_true, decide_eq_true_eq] at hp
  exact ⟨_, fx, s, h, rfl, hp.1.1, hp.1.2, hp.2⟩

end Cs.Raft
