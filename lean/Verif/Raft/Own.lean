import Verif.Raft.PropsWaits

/-!
# Who puts entries in the log

A walk over the handlers: entries are added by leaders, with their term.
-/

set_option linter.unusedSectionVars false
set_option linter.unusedVariables false

namespace Cs.Raft
open Cs

/-- A leader stays one of the same term, and new entries are those of a leader and carry its term. -/
def Owned (s s' : Srv) : Prop :=
  (s.role = .leader → s'.role = .leader ∧ s'.term = s.term) ∧
    ∀ k e, s'.log.get? k = some e → s.log.get? k = some e ∨ (s'.role = .leader ∧ e.term = s'.term)

/-- The same for leaders. -/
def OwnedL (s s' : Srv) : Prop := s.role = .leader → Owned s s'

/-- No new entries. -/
def NoNew (s s' : Srv) : Prop := ∀ k e, s'.log.get? k = some e → s.log.get? k = some e

theorem ownedPo : PO Owned := by
  refine ⟨fun s => ⟨fun h => ⟨h, rfl⟩, fun k e h => .inl h⟩, ?_⟩
  rintro a b c ⟨h1, h2⟩ ⟨g1, g2⟩
  refine ⟨fun h => ⟨(g1 (h1 h).1).1, (g1 (h1 h).1).2.trans (h1 h).2⟩, fun k e hk => ?_⟩
  rcases g2 k e hk with h | h
  · rcases h2 k e h with h' | ⟨h', h''⟩
    · exact .inl h'
    · exact .inr ⟨(g1 h').1, by rw [h'', (g1 h').2]⟩
  · exact .inr h

theorem ownedLPo : PO OwnedL :=
  ⟨fun s _ => ownedPo.refl s, fun h g ha => ownedPo.trans (h ha) (g ((h ha).1 ha).1)⟩

theorem noNewPo : PO NoNew := ⟨fun _ _ _ h => h, fun h g k e hk => h k e (g k e hk)⟩

theorem ownedL_of {α : Type} {m : R α} (h : Pres Owned m) : Pres OwnedL m := fun s _ => h s

theorem owned_same {s s' : Srv} (h1 : s'.role = s.role) (h2 : s'.term = s.term) (h3 : s'.log = s.log) : Owned s s' :=
  ⟨fun h => ⟨h1.trans h, h2⟩, fun k e h => by rw [h3] at h; exact .inl h⟩

theorem owned_add {s s' : Srv} {e : Entry} (hs : s.role = .leader) (h1 : s'.role = s.role) (h2 : s'.term = s.term)
    (h3 : s'.log = s.log.append e) (h4 : e.term = s.term) : Owned s s' := by
  refine ⟨fun h => ⟨h1.trans h, h2⟩, fun k x h => ?_⟩
  rw [h3] at h
  rcases Log.get?_append h with ⟨_, h⟩ | ⟨_, h⟩
  · exact .inl h
  · subst h; exact .inr ⟨h1.trans hs, h4.trans h2.symm⟩

theorem ol_mod {f : Srv → Srv} (h : ∀ s, (f s).role = s.role ∧ (f s).term = s.term ∧ (f s).log = s.log) :
    Pres Owned (modify f : R PUnit) := fun s => owned_same (h s).1 (h s).2.1 (h s).2.2
theorem ll_mod {f : Srv → Srv} (h : ∀ s, (f s).role = s.role ∧ (f s).term = s.term ∧ (f s).log = s.log) :
    Pres OwnedL (modify f : R PUnit) := ownedL_of (ol_mod h)
theorem kp_mod {f : Srv → Srv} (h : ∀ s, (f s).log = s.log) : Pres NoNew (modify f : R PUnit) :=
  fun s k e hk => by rw [← h s]; exact hk
theorem ol_emit (e : Eff) : Pres Owned (emit e) := fun s => owned_same rfl rfl rfl
theorem ll_emit (e : Eff) : Pres OwnedL (emit e) := ownedL_of (ol_emit e)
theorem kp_emit (e : Eff) : Pres NoNew (emit e) := fun _ _ _ h => h
theorem ol_modPeer (r : PeerRef) (f : Peer → Peer) : Pres Owned (modPeer r f) := fun s => by
  cases r <;> exact owned_same rfl rfl rfl
theorem ll_modPeer (r : PeerRef) (f : Peer → Peer) : Pres OwnedL (modPeer r f) := ownedL_of (ol_modPeer r f)
theorem kp_modPeer (r : PeerRef) (f : Peer → Peer) : Pres NoNew (modPeer r f) := fun s => by
  cases r <;> exact fun _ _ h => h

/-- The primitive updates. -/
macro "ols" : tactic => `(tactic| first | rfl | exact ol_mod fun _ => ⟨rfl, rfl, rfl⟩ | exact ol_mod fun _ => (by split <;> exact ⟨rfl, rfl, rfl⟩) | exact owned_same rfl rfl rfl | (intro _; exact owned_same rfl rfl rfl))
/-- The primitive updates. -/
macro "lls" : tactic => `(tactic| first | rfl | exact ll_mod fun _ => ⟨rfl, rfl, rfl⟩ | exact ll_mod fun _ => (by split <;> exact ⟨rfl, rfl, rfl⟩))
/-- The primitive updates. -/
macro "kps" : tactic => `(tactic| first | rfl | exact kp_mod fun _ => rfl | exact kp_mod fun _ => (by split <;> rfl))

theorem ol_logCompact (i : Nat) : Pres Owned (logCompact i) := by
  intro s
  unfold logCompact
  rw [bind_get]
  by_cases h : i < s.log.start
  · rw [if_pos h]; exact ownedPo.refl s
  · rw [if_neg h]
    by_cases hc : s.env.compactOk i
    · rw [if_pos hc]
      exact ⟨fun h => ⟨h, rfl⟩, fun k e hk => .inl (Log.get?_compact_some (l := s.log) (i := i) (by omega) hk)⟩
    · rw [if_neg hc]; exact ownedPo.refl s

theorem ol_die {α : Type} (c : Int) : Pres Owned (die c : R α) := by
  unfold die
  pres ownedPo using ol_emit
  all_goals ols
theorem lo_die {α : Type} (c : Int) : Pres OwnedL (die c : R α) := ownedL_of (ol_die c)
theorem kp_die {α : Type} (c : Int) : Pres NoNew (die c : R α) := by
  unfold die
  pres noNewPo using kp_emit
  all_goals kps
theorem kp_saveState : Pres NoNew saveState := by
  unfold saveState
  pres noNewPo using kp_emit
  all_goals kps
theorem ol_saveState  : Pres Owned (saveState) := by
  unfold saveState
  pres ownedPo using ol_emit
  all_goals ols
theorem ol_getPeer (r : PeerRef) : Pres Owned (getPeer r) := by
  unfold getPeer
  pres ownedPo using ol_emit
  all_goals ols
theorem lo_getPeer (r : PeerRef) : Pres OwnedL (getPeer r) := ownedL_of (ol_getPeer r)
theorem ol_peerIds  : Pres Owned (peerIds) := by
  unfold peerIds
  pres ownedPo using ol_emit
  all_goals ols
theorem lo_peerIds  : Pres OwnedL (peerIds) := ownedL_of (ol_peerIds)
theorem ol_termAt (i : Nat) : Pres Owned (termAt i) := by
  unfold termAt
  pres ownedPo using ol_emit
  all_goals ols
theorem ol_entryAt (i : Nat) : Pres Owned (entryAt i) := by
  unfold entryAt
  pres ownedPo using ol_emit
  all_goals ols
theorem ol_entryToApply (i : Nat) : Pres Owned (entryToApply i) := by
  unfold entryToApply
  pres ownedPo using ol_die
  all_goals ols
theorem ol_termForLog (i : Nat) : Pres Owned (termForLog i) := by
  unfold termForLog
  pres ownedPo using ol_die, ol_termAt
  all_goals ols
theorem kp_restartElectionTimer : Pres NoNew restartElectionTimer := by
  unfold restartElectionTimer
  pres noNewPo using kp_emit
  all_goals kps
theorem ol_restartElectionTimer  : Pres Owned (restartElectionTimer) := by
  unfold restartElectionTimer
  pres ownedPo using ol_emit
  all_goals ols
theorem ol_stopElectionTimer  : Pres Owned (stopElectionTimer) := by
  unfold stopElectionTimer
  pres ownedPo using ol_emit
  all_goals ols
theorem ol_enableHb (r : PeerRef) : Pres Owned (enableHb r) := by
  unfold enableHb
  pres ownedPo using ol_modPeer
  all_goals ols
theorem kp_becomeFollower  : Pres NoNew (becomeFollower) := by
  unfold becomeFollower
  pres noNewPo using kp_emit, kp_modPeer, kp_restartElectionTimer
  all_goals kps
theorem kp_updateTerm (term : Nat) : Pres NoNew (updateTerm term) := by
  unfold updateTerm
  pres noNewPo using kp_emit, kp_modPeer, kp_becomeFollower, kp_saveState
  all_goals kps
theorem ol_chooseSnap (r : PeerRef) (lastIdx : Nat) : Pres Owned (chooseSnap r lastIdx) := by
  unfold chooseSnap
  pres ownedPo using ol_die, ol_modPeer, ol_getPeer
  all_goals ols
theorem ol_createSyncSnapshotReq (r : PeerRef) (lastIdx term commitIdx : Nat) : Pres Owned (createSyncSnapshotReq r lastIdx term commitIdx) := by
  unfold createSyncSnapshotReq
  pres ownedPo using ol_die, ol_getPeer, ol_chooseSnap
  all_goals ols
theorem lo_createSyncSnapshotReq (r : PeerRef) (lastIdx term commitIdx : Nat) : Pres OwnedL (createSyncSnapshotReq r lastIdx term commitIdx) := ownedL_of (ol_createSyncSnapshotReq r lastIdx term commitIdx)
theorem ol_entriesFrom (last : Nat) : Pres Owned (entriesFrom last) := by
  unfold entriesFrom
  pres ownedPo using ol_emit
  all_goals ols
theorem ol_appendReqFrom (r : PeerRef) (last : Nat) : Pres Owned (appendReqFrom r last) := by
  unfold appendReqFrom
  pres ownedPo using ol_getPeer, ol_termForLog, ol_entriesFrom
  all_goals ols
theorem ol_createAppendReq (r : PeerRef) : Pres Owned (createAppendReq r) := by
  unfold createAppendReq
  pres ownedPo using ol_die, ol_modPeer, ol_getPeer, ol_createSyncSnapshotReq, ol_appendReqFrom
  all_goals ols
theorem ol_requestAppend (r : PeerRef) : Pres Owned (requestAppend r) := by
  unfold requestAppend
  pres ownedPo using ol_emit, ol_modPeer, ol_getPeer, ol_createAppendReq
  all_goals ols
theorem ol_commitNotify (id : Int) : Pres Owned (commitNotify id) := by
  unfold commitNotify
  pres ownedPo using ol_modPeer, ol_requestAppend
  all_goals ols
theorem ol_commit (target : Nat) : Pres Owned (commit target) := by
  unfold commit
  pres ownedPo using ol_emit, ol_peerIds, ol_commitNotify
  all_goals ols
theorem ol_requestAppendTo (id : Int) : Pres Owned (requestAppendTo id) := by
  unfold requestAppendTo
  pres ownedPo using ol_requestAppend
  all_goals ols
theorem ol_requestAppendAll  : Pres Owned (requestAppendAll) := by
  unfold requestAppendAll
  pres ownedPo using ol_peerIds, ol_commit, ol_requestAppendTo
  all_goals ols
theorem ol_leaderPeer (id : Int) : Pres Owned (leaderPeer id) := by
  unfold leaderPeer
  pres ownedPo using ol_modPeer, ol_enableHb
  all_goals ols
theorem ll_initialConf : Pres OwnedL initialConf := by
  intro s hs
  unfold initialConf
  rw [bind_get]
  by_cases h : s.config.logIdx = 0
  · rw [if_pos h]
    exact owned_add (e := ⟨s.term, .conf { s.config with prevLogIdx := s.config.logIdx, logIdx := s.log.next }⟩) hs rfl rfl rfl rfl
  · rw [if_neg h]; exact ownedPo.refl s
theorem ll_leaderPeer (i : Int) : Pres OwnedL (leaderPeer i) := ownedL_of (ol_leaderPeer i)
theorem ol_becomeLeader : Pres Owned becomeLeader := by
  intro s
  refine ownedPo.trans (b := { s with armed := false, role := .leader }) ⟨fun _ => ⟨rfl, rfl⟩, fun k e h => .inl h⟩ ?_
  have h : Pres OwnedL (do
      emit (.lead s.term)
      modify fun s => { s with leader := s.id }
      modify fun s => { s with srvToJoin := none }
      let ids ← peerIds
      forEach leaderPeer ids
      initialConf
      emit (.event .becomeLeader)
      requestAppendAll : R Unit) := by
    pres ownedLPo using ll_initialConf, ll_emit, ownedL_of ol_peerIds, ownedL_of ol_requestAppendAll, ll_leaderPeer
    all_goals lls
  exact h { s with armed := false, role := .leader } rfl
theorem ol_askVote (ty : MsgType) (id : Int) : Pres Owned (askVote ty id) := by
  unfold askVote
  pres ownedPo using ol_emit, ol_termForLog
  all_goals ols
theorem ol_voteSelf  : Pres Owned (voteSelf) := by
  unfold voteSelf
  pres ownedPo using ol_saveState
  all_goals ols
theorem ol_askForVotes  : Pres Owned (askForVotes) := by
  unfold askForVotes
  pres ownedPo using ol_peerIds, ol_becomeLeader, ol_askVote
  all_goals ols
theorem ol_requestVote  : Pres Owned (requestVote) := by
  unfold requestVote
  pres ownedPo using ol_voteSelf, ol_askForVotes
  all_goals ols
theorem kp_startTerm  : Pres NoNew (startTerm) := by
  unfold startTerm
  pres noNewPo using kp_emit, kp_modPeer, kp_saveState
  all_goals kps
theorem ol_rearm  : Pres Owned (rearm) := by
  unfold rearm
  pres ownedPo using ol_restartElectionTimer
  all_goals ols
theorem kp_leaveConfig  : Pres NoNew (leaveConfig) := by
  unfold leaveConfig
  pres noNewPo using kp_emit, kp_modPeer
  all_goals kps
theorem ol_handleHbTimeout (r : PeerRef) : Pres Owned (handleHbTimeout r) := by
  unfold handleHbTimeout
  pres ownedPo using ol_modPeer, ol_requestAppend
  all_goals ols
theorem ol_logOkay (req : Req) : Pres Owned (logOkay req) := by
  unfold logOkay
  pres ownedPo using ol_termForLog
  all_goals ols
theorem ol_handleVoteReq (req : Req) : Pres Owned (handleVoteReq req) := by
  unfold handleVoteReq
  pres ownedPo using ol_saveState
  all_goals ols
theorem ol_handlePrevoteReq (req : Req) : Pres Owned (handlePrevoteReq req) := by
  unfold handlePrevoteReq
  pres ownedPo using ol_emit
  all_goals ols
theorem ol_isLeader  : Pres Owned (isLeader) := by
  unfold isLeader
  pres ownedPo using ol_emit
  all_goals ols
theorem ll_appendClient (es : List Entry) : Pres OwnedL (appendClient es) := by
  induction es with
  | nil => exact pres_pure ownedLPo _
  | cons e es ih =>
    intro s hs
    unfold appendClient
    rw [bind_get]
    have h1 : ∀ e, logAppend e s = (.ok ⟨⟩, { s with log := s.log.append e, trace := s.trace ++ [.append e] }) := fun _ => rfl
    have h2 : ∀ (e : Eff) (s : Srv), emit e s = (.ok ⟨⟩, { s with trace := s.trace ++ [e] }) := fun _ _ => rfl
    rw [run_bind_ok (h1 _), run_bind_ok (h2 _ _)]
    refine ownedPo.trans ?_ (ih _ ?_)
    · exact owned_add (e := { e with term := s.term }) hs rfl rfl rfl rfl
    · exact hs
theorem ol_addPeer (c : SrvCfg) : Pres Owned (addPeer c) := by
  unfold addPeer
  pres ownedPo using ol_modPeer, ol_enableHb
  all_goals ols
theorem ol_removePeer (c : Config) (id : Int) : Pres Owned (removePeer c id) := by
  unfold removePeer
  pres ownedPo using ol_emit, ol_die
  all_goals ols
theorem ol_reconfigure (c : Config) : Pres Owned (reconfigure c) := by
  unfold reconfigure
  pres ownedPo using ol_addPeer, ol_removePeer
  all_goals ols
theorem ol_installSnapshot (snp : Snap) : Pres Owned (installSnapshot snp) := by
  unfold installSnapshot
  pres ownedPo using ol_emit, ol_die, ol_logCompact, ol_saveState, ol_restartElectionTimer, ol_stopElectionTimer, ol_reconfigure
  all_goals ols
theorem ol_handleSnapshotSync (q : SnpSync) : Pres Owned (handleSnapshotSync q) := by
  unfold handleSnapshotSync
  pres ownedPo using ol_emit, ol_die, ol_installSnapshot
  all_goals ols
theorem kp_hearSnapshotLeader (req : Req) : Pres NoNew (hearSnapshotLeader req) := by
  unfold hearSnapshotLeader
  pres noNewPo using kp_emit, kp_modPeer, kp_becomeFollower, kp_die, kp_restartElectionTimer
  all_goals kps
theorem ol_handleRmSrv (req : Req) : Pres Owned (handleRmSrv req) := by
  unfold handleRmSrv
  pres ownedPo using ol_emit
  all_goals ols
theorem ol_inviteSrv  : Pres Owned (inviteSrv) := by
  unfold inviteSrv
  pres ownedPo using ol_emit, ol_getPeer
  all_goals ols
theorem ol_handleAddSrv (req : Req) : Pres Owned (handleAddSrv req) := by
  unfold handleAddSrv
  pres ownedPo using ol_inviteSrv
  all_goals ols
theorem ol_handleLeave (req : Req) : Pres Owned (handleLeave req) := by
  unfold handleLeave
  pres ownedPo using ol_emit
  all_goals ols
theorem kp_hearTerm (req : Req) : Pres NoNew (hearTerm req) := by
  unfold hearTerm
  pres noNewPo using kp_emit, kp_modPeer, kp_updateTerm
  all_goals kps
theorem ol_acceptedResp (resp : Resp) : Pres Owned (acceptedResp resp) := by
  unfold acceptedResp
  pres ownedPo using ol_modPeer, ol_getPeer, ol_commit
  all_goals ols
theorem ol_refusedResp (resp : Resp) : Pres Owned (refusedResp resp) := by
  unfold refusedResp
  pres ownedPo using ol_modPeer
  all_goals ols
theorem ol_handleAppendResp (resp : Resp) : Pres Owned (handleAppendResp resp) := by
  unfold handleAppendResp
  pres ownedPo using ol_requestAppendTo, ol_acceptedResp, ol_refusedResp
  all_goals ols
theorem ol_acceptedSnpResp (resp : Resp) : Pres Owned (acceptedSnpResp resp) := by
  unfold acceptedSnpResp
  pres ownedPo using ol_modPeer, ol_getPeer
  all_goals ols
theorem ol_handleSnpResp (resp : Resp) : Pres Owned (handleSnpResp resp) := by
  unfold handleSnpResp
  pres ownedPo using ol_requestAppendTo, ol_acceptedSnpResp
  all_goals ols
theorem ol_handleVotingResp (resp : Resp) : Pres Owned (handleVotingResp resp) := by
  unfold handleVotingResp
  pres ownedPo using ol_becomeLeader
  all_goals ols
theorem ol_dispatchResp (resp : Resp) : Pres Owned (dispatchResp resp) := by
  unfold dispatchResp
  pres ownedPo using ol_die, ol_handleAppendResp, ol_handleSnpResp, ol_handleVotingResp
  all_goals ols
theorem ll_addToConfig : Pres OwnedL addToConfig := by
  intro s hs
  unfold addToConfig
  rw [bind_get]
  cases hc : s.confToAdd with
  | none => exact ownedPo.refl s
  | some c =>
    have h := ol_requestAppendAll { s with log := s.log.append ⟨s.term, .conf ⟨s.log.next, s.config.logIdx, s.config.servers ++ [c]⟩⟩, trace := s.trace ++ [.append ⟨s.term, .conf ⟨s.log.next, s.config.logIdx, s.config.servers ++ [c]⟩⟩], configChanging := true }
    exact ownedPo.trans (owned_add (s' := { s with log := s.log.append ⟨s.term, .conf ⟨s.log.next, s.config.logIdx, s.config.servers ++ [c]⟩⟩, trace := s.trace ++ [.append ⟨s.term, .conf ⟨s.log.next, s.config.logIdx, s.config.servers ++ [c]⟩⟩], configChanging := true }) (e := ⟨s.term, .conf ⟨s.log.next, s.config.logIdx, s.config.servers ++ [c]⟩⟩) hs rfl rfl rfl rfl) h
theorem ll_syncLogToNewSrv (start : Nat) : Pres OwnedL (syncLogToNewSrv start) := by
  unfold syncLogToNewSrv
  pres ownedLPo using ll_emit, ll_modPeer, ll_addToConfig, lo_getPeer, lo_createSyncSnapshotReq
  all_goals lls
theorem ll_rmSrvFromCluster (id : Int) : Pres OwnedL (rmSrvFromCluster id) := by
  intro s hs
  have h := ol_requestAppendAll { s with log := s.log.append ⟨s.term, .conf ⟨s.log.next, s.config.logIdx, s.config.servers.filter fun x => x.id != id⟩⟩, trace := s.trace ++ [.append ⟨s.term, .conf ⟨s.log.next, s.config.logIdx, s.config.servers.filter fun x => x.id != id⟩⟩], configChanging := true }
  exact ownedPo.trans (owned_add (s' := { s with log := s.log.append ⟨s.term, .conf ⟨s.log.next, s.config.logIdx, s.config.servers.filter fun x => x.id != id⟩⟩, trace := s.trace ++ [.append ⟨s.term, .conf ⟨s.log.next, s.config.logIdx, s.config.servers.filter fun x => x.id != id⟩⟩], configChanging := true }) (e := ⟨s.term, .conf ⟨s.log.next, s.config.logIdx, s.config.servers.filter fun x => x.id != id⟩⟩) hs rfl rfl rfl rfl) h
theorem ll_handleExtSnpResp (resp : Resp) : Pres OwnedL (handleExtSnpResp resp) := by
  unfold handleExtSnpResp
  pres ownedLPo using ll_emit, ll_modPeer, ll_syncLogToNewSrv, lo_getPeer, lo_die
  all_goals lls
theorem ll_forceRemove (id : Int) : Pres OwnedL (forceRemove id) := by
  unfold forceRemove
  pres ownedLPo using ll_emit, ll_modPeer, ll_rmSrvFromCluster
  all_goals lls
theorem ll_handleExtErr (req : Req) : Pres OwnedL (handleExtErr req) := by
  unfold handleExtErr
  pres ownedLPo using ll_emit, ll_modPeer, ll_forceRemove
  all_goals lls
theorem ol_retryReq (req : Req) : Pres Owned (retryReq req) := by
  unfold retryReq
  pres ownedPo using ol_emit
  all_goals ols
theorem ol_rpcResult (r : PeerRef) (ty : MsgType) (ok : Bool) : Pres Owned (rpcResult r ty ok) := by
  unfold rpcResult
  pres ownedPo using ol_modPeer
  all_goals ols
theorem ol_commitConf (c : Config) : Pres Owned (commitConf c) := by
  unfold commitConf
  pres ownedPo using ol_emit, ol_reconfigure
  all_goals ols
theorem ol_findConf (idx n : Nat) (c : Config) : Pres Owned (findConf idx n c) := by
  induction n generalizing c with
  | zero => exact pres_throw ownedPo _
  | succ n ih =>
    unfold findConf
    pres ownedPo using ol_entryAt, ol_die, ih
    all_goals ols
theorem ol_confForSnap (idx : Nat) : Pres Owned (confForSnap idx) := by
  unfold confForSnap
  pres ownedPo using ol_die, ol_findConf
  all_goals ols
theorem ol_startSnapshot (idx : Nat) : Pres Owned (startSnapshot idx) := by
  unfold startSnapshot
  pres ownedPo using ol_emit, ol_termAt, ol_confForSnap
  all_goals ols
theorem ol_snapshotAndCompact (idx : Nat) : Pres Owned (snapshotAndCompact idx) := by
  unfold snapshotAndCompact
  pres ownedPo using ol_startSnapshot
  all_goals ols
theorem ol_keepSnap (snp : Snap) : Pres Owned (keepSnap snp) := by
  unfold keepSnap
  pres ownedPo using ol_emit
  all_goals ols
theorem ol_onSnapshotCompleted (snp : Snap) (ok : Bool) : Pres Owned (onSnapshotCompleted snp ok) := by
  unfold onSnapshotCompleted
  pres ownedPo using ol_logCompact
  all_goals ols
theorem ol_applyEntry (i : Nat) (e : Entry) : Pres Owned (applyEntry i e) := by
  unfold applyEntry
  pres ownedPo using ol_emit, ol_commitConf
  all_goals ols
theorem ol_applyOne  : Pres Owned (applyOne) := by
  unfold applyOne
  pres ownedPo using ol_entryToApply, ol_snapshotAndCompact, ol_applyEntry
  all_goals ols

end Cs.Raft
