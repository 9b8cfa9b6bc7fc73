import Verif.Raft.PropsWaits

/-!
# The flag of a membership change is not set without a reason

A walk over the handlers: unless entries are cut off the log, configurations that wait to be applied go on waiting, and if the flag
`config_changing_` is set then such a configuration is put in the log.
-/

set_option linter.unusedSectionVars false
set_option linter.unusedVariables false

namespace Cs.Raft
open Cs

/-- Configurations go on waiting, and the flag is only set if there is one. -/
def Fr (s s' : Srv) : Prop :=
  (s.smCommit < s.log.next → s'.smCommit < s'.log.next) ∧ (∀ k, Waiting s k → Waiting s' k) ∧
    (s.smCommit < s.log.next → s'.configChanging = true → s.configChanging = true ∨ ∃ k, Waiting s' k)

theorem frPo : PO Fr := by
  refine ⟨fun s => ⟨fun h => h, fun _ h => h, fun _ h => .inl h⟩, ?_⟩
  rintro a b c ⟨h1, h2, h3⟩ ⟨g1, g2, g3⟩
  refine ⟨fun h => g1 (h1 h), fun k h => g2 k (h2 k h), fun hs hc => ?_⟩
  rcases g3 (h1 hs) hc with h | h
  · rcases h3 hs h with h' | ⟨k, h'⟩
    · exact .inl h'
    · exact .inr ⟨k, g2 k h'⟩
  · exact .inr h

theorem fr_same {s s' : Srv} (h1 : s'.smCommit = s.smCommit) (h2 : s'.configChanging = s.configChanging) (h3 : s'.log = s.log) :
    Fr s s' := by
  refine ⟨fun h => by rw [h1, h3]; exact h, fun k h => ?_, fun _ h => by rw [h2] at h; exact .inl h⟩
  unfold Waiting; rw [h1, h3]; exact h

theorem fr_app {s s' : Srv} {e : Entry} (h1 : s'.smCommit = s.smCommit) (h3 : s'.log = s.log.append e)
    (h2 : s'.configChanging = s.configChanging) : Fr s s' := by
  refine ⟨fun h => by rw [h1, h3, Log.next_append]; omega, fun k h => ?_, fun _ h => by rw [h2] at h; exact .inl h⟩
  obtain ⟨h4, x, h5, h6⟩ := h
  exact ⟨by rw [h1]; exact h4, x, by rw [h3]; exact Log.get?_append_lt h5, h6⟩

theorem fr_add {s s' : Srv} {e : Entry} (h1 : s'.smCommit = s.smCommit) (h3 : s'.log = s.log.append e) (he : e.isConf = true) :
    Fr s s' := by
  refine ⟨fun h => by rw [h1, h3, Log.next_append]; omega, fun k h => ?_, fun hs _ => .inr ⟨s.log.next, ?_⟩⟩
  · obtain ⟨h4, x, h5, h6⟩ := h
    exact ⟨by rw [h1]; exact h4, x, by rw [h3]; exact Log.get?_append_lt h5, h6⟩
  · exact ⟨by rw [h1]; exact hs, e, by rw [h3]; exact Log.get?_append_self _ _, he⟩

theorem fr_mod {f : Srv → Srv} (h : ∀ s, (f s).smCommit = s.smCommit ∧ (f s).configChanging = s.configChanging ∧ (f s).log = s.log) :
    Pres Fr (modify f : R PUnit) := fun s => fr_same (h s).1 (h s).2.1 (h s).2.2
theorem fr_off {f : Srv → Srv} (h : ∀ s, (f s).smCommit = s.smCommit ∧ (f s).configChanging = false ∧ (f s).log = s.log) :
    Pres Fr (modify f : R PUnit) := fun s => by
  obtain ⟨h1, h2, h3⟩ := h s
  refine ⟨fun h => by show (f s).smCommit < (f s).log.next; rw [h1, h3]; exact h, fun k h => ?_, fun _ h => ?_⟩
  · show Waiting (f s) k
    unfold Waiting; rw [h1, h3]; exact h
  · have h' : (f s).configChanging = true := h
    rw [h2] at h'; cases h'
theorem fr_zero {f : Srv → Srv} (h : ∀ s, (f s).smCommit = 0 ∧ (f s).configChanging = s.configChanging ∧ (f s).log = s.log) :
    Pres Fr (modify f : R PUnit) := fun s => by
  obtain ⟨h1, h2, h3⟩ := h s
  refine ⟨fun h => by show (f s).smCommit < (f s).log.next; rw [h1, h3]; omega, fun k h => ?_, fun _ h => ?_⟩
  · show Waiting (f s) k
    obtain ⟨h4, h5⟩ := h
    unfold Waiting; rw [h1, h3]; exact ⟨by omega, h5⟩
  · have h' : (f s).configChanging = true := h
    rw [h2] at h'; exact .inl h'
theorem fr_emit (e : Eff) : Pres Fr (emit e) := fun s => fr_same rfl rfl rfl
theorem fr_modPeer (r : PeerRef) (f : Peer → Peer) : Pres Fr (modPeer r f) := fun s => by
  cases r <;> exact fr_same rfl rfl rfl

/-- The primitive updates. -/
macro "frs" : tactic => `(tactic| first | rfl | exact fr_mod fun _ => ⟨rfl, rfl, rfl⟩ | exact fr_mod fun _ => (by split <;> exact ⟨rfl, rfl, rfl⟩) | exact fr_off fun _ => ⟨rfl, rfl, rfl⟩ | exact fr_zero fun _ => ⟨rfl, rfl, rfl⟩ | exact fr_same rfl rfl rfl | (intro _; exact fr_same rfl rfl rfl))

theorem fr_die {α : Type} (c : Int) : Pres Fr (die c : R α) := by
  unfold die
  pres frPo using fr_emit
  all_goals frs
theorem fr_saveState  : Pres Fr (saveState) := by
  unfold saveState
  pres frPo using fr_emit
  all_goals frs
theorem fr_getPeer (r : PeerRef) : Pres Fr (getPeer r) := by
  unfold getPeer
  pres frPo using fr_emit
  all_goals frs
theorem fr_peerIds  : Pres Fr (peerIds) := by
  unfold peerIds
  pres frPo using fr_emit
  all_goals frs
theorem fr_termAt (i : Nat) : Pres Fr (termAt i) := by
  unfold termAt
  pres frPo using fr_emit
  all_goals frs
theorem fr_entryAt (i : Nat) : Pres Fr (entryAt i) := by
  unfold entryAt
  pres frPo using fr_emit
  all_goals frs
theorem fr_entryToApply (i : Nat) : Pres Fr (entryToApply i) := by
  unfold entryToApply
  pres frPo using fr_die
  all_goals frs
theorem fr_termForLog (i : Nat) : Pres Fr (termForLog i) := by
  unfold termForLog
  pres frPo using fr_die, fr_termAt
  all_goals frs
theorem fr_restartElectionTimer  : Pres Fr (restartElectionTimer) := by
  unfold restartElectionTimer
  pres frPo using fr_emit
  all_goals frs
theorem fr_stopElectionTimer  : Pres Fr (stopElectionTimer) := by
  unfold stopElectionTimer
  pres frPo using fr_emit
  all_goals frs
theorem fr_enableHb (r : PeerRef) : Pres Fr (enableHb r) := by
  unfold enableHb
  pres frPo using fr_modPeer
  all_goals frs
theorem fr_becomeFollower  : Pres Fr (becomeFollower) := by
  unfold becomeFollower
  pres frPo using fr_emit, fr_restartElectionTimer
  all_goals frs
theorem fr_updateTerm (term : Nat) : Pres Fr (updateTerm term) := by
  unfold updateTerm
  pres frPo using fr_saveState, fr_becomeFollower
  all_goals frs
theorem fr_chooseSnap (r : PeerRef) (lastIdx : Nat) : Pres Fr (chooseSnap r lastIdx) := by
  unfold chooseSnap
  pres frPo using fr_die, fr_modPeer, fr_getPeer
  all_goals frs
theorem fr_createSyncSnapshotReq (r : PeerRef) (lastIdx term commitIdx : Nat) : Pres Fr (createSyncSnapshotReq r lastIdx term commitIdx) := by
  unfold createSyncSnapshotReq
  pres frPo using fr_die, fr_getPeer, fr_chooseSnap
  all_goals frs
theorem fr_entriesFrom (last : Nat) : Pres Fr (entriesFrom last) := by
  unfold entriesFrom
  pres frPo using fr_emit
  all_goals frs
theorem fr_appendReqFrom (r : PeerRef) (last : Nat) : Pres Fr (appendReqFrom r last) := by
  unfold appendReqFrom
  pres frPo using fr_getPeer, fr_termForLog, fr_entriesFrom
  all_goals frs
theorem fr_createAppendReq (r : PeerRef) : Pres Fr (createAppendReq r) := by
  unfold createAppendReq
  pres frPo using fr_die, fr_modPeer, fr_getPeer, fr_createSyncSnapshotReq, fr_appendReqFrom
  all_goals frs
theorem fr_requestAppend (r : PeerRef) : Pres Fr (requestAppend r) := by
  unfold requestAppend
  pres frPo using fr_emit, fr_modPeer, fr_getPeer, fr_createAppendReq
  all_goals frs
theorem fr_commitNotify (id : Int) : Pres Fr (commitNotify id) := by
  unfold commitNotify
  pres frPo using fr_modPeer, fr_requestAppend
  all_goals frs
theorem fr_commit (target : Nat) : Pres Fr (commit target) := by
  unfold commit
  pres frPo using fr_emit, fr_peerIds, fr_commitNotify
  all_goals frs
theorem fr_requestAppendTo (id : Int) : Pres Fr (requestAppendTo id) := by
  unfold requestAppendTo
  pres frPo using fr_requestAppend
  all_goals frs
theorem fr_requestAppendAll  : Pres Fr (requestAppendAll) := by
  unfold requestAppendAll
  pres frPo using fr_peerIds, fr_commit, fr_requestAppendTo
  all_goals frs
theorem fr_leaderPeer (id : Int) : Pres Fr (leaderPeer id) := by
  unfold leaderPeer
  pres frPo using fr_modPeer, fr_enableHb
  all_goals frs
theorem fr_initialConf : Pres Fr initialConf := by
  intro s
  unfold initialConf
  rw [bind_get]
  by_cases h : s.config.logIdx = 0
  · rw [if_pos h]
    exact fr_add (e := ⟨s.term, .conf { s.config with prevLogIdx := s.config.logIdx, logIdx := s.log.next }⟩) rfl rfl rfl
  · rw [if_neg h]; exact frPo.refl s
theorem fr_becomeLeader  : Pres Fr (becomeLeader) := by
  unfold becomeLeader
  pres frPo using fr_emit, fr_initialConf, fr_peerIds, fr_stopElectionTimer, fr_requestAppendAll, fr_leaderPeer
  all_goals frs
theorem fr_askVote (ty : MsgType) (id : Int) : Pres Fr (askVote ty id) := by
  unfold askVote
  pres frPo using fr_emit, fr_termForLog
  all_goals frs
theorem fr_voteSelf  : Pres Fr (voteSelf) := by
  unfold voteSelf
  pres frPo using fr_saveState
  all_goals frs
theorem fr_askForVotes  : Pres Fr (askForVotes) := by
  unfold askForVotes
  pres frPo using fr_peerIds, fr_becomeLeader, fr_askVote
  all_goals frs
theorem fr_requestVote  : Pres Fr (requestVote) := by
  unfold requestVote
  pres frPo using fr_voteSelf, fr_askForVotes
  all_goals frs
theorem fr_startTerm  : Pres Fr (startTerm) := by
  unfold startTerm
  pres frPo using fr_saveState
  all_goals frs
theorem fr_rearm  : Pres Fr (rearm) := by
  unfold rearm
  pres frPo using fr_restartElectionTimer
  all_goals frs
theorem fr_becomeCandidate  : Pres Fr (becomeCandidate) := by
  unfold becomeCandidate
  pres frPo using fr_requestVote, fr_startTerm, fr_rearm
  all_goals frs
theorem fr_requestPrevote  : Pres Fr (requestPrevote) := by
  unfold requestPrevote
  pres frPo using fr_peerIds, fr_askVote, fr_becomeCandidate
  all_goals frs
theorem fr_leaveConfig  : Pres Fr (leaveConfig) := by
  unfold leaveConfig
  pres frPo using fr_emit
  all_goals frs
theorem fr_handleElectionTimeout  : Pres Fr (handleElectionTimeout) := by
  unfold handleElectionTimeout
  pres frPo using fr_die, fr_restartElectionTimer, fr_becomeCandidate, fr_requestPrevote, fr_leaveConfig
  all_goals frs
theorem fr_handleHbTimeout (r : PeerRef) : Pres Fr (handleHbTimeout r) := by
  unfold handleHbTimeout
  pres frPo using fr_modPeer, fr_requestAppend
  all_goals frs
theorem fr_skipSame (idx : Nat) (es : List Entry) : Pres Fr (skipSame idx es) := by
  induction es generalizing idx with
  | nil => exact pres_pure frPo _
  | cons e es ih =>
    unfold skipSame
    pres frPo using fr_termAt, ih
    all_goals frs
theorem fr_appendNew (es : List Entry) : Pres Fr (appendNew es) := by
  induction es with
  | nil => exact pres_pure frPo _
  | cons e es ih =>
    intro s
    unfold appendNew
    rw [bind_get]
    have h1 : logAppend e s = (.ok ⟨⟩, { s with log := s.log.append e, trace := s.trace ++ [.append e] }) := rfl
    rw [run_bind_ok h1, run_bind_ok (run_noteNew _ _ _)]
    refine frPo.trans ?_ (ih _)
    rcases hc : e.isConf with _ | _
    · exact fr_app (e := e) rfl rfl (by show (s.configChanging || false) = s.configChanging; rw [Bool.or_false])
    · exact fr_add (e := e) rfl rfl hc
theorem fr_hearLeader (req : Req) : Pres Fr (hearLeader req) := by
  unfold hearLeader
  pres frPo using fr_die, fr_restartElectionTimer, fr_becomeFollower
  all_goals frs
theorem fr_logOkay (req : Req) : Pres Fr (logOkay req) := by
  unfold logOkay
  pres frPo using fr_termForLog
  all_goals frs
theorem fr_handleVoteReq (req : Req) : Pres Fr (handleVoteReq req) := by
  unfold handleVoteReq
  pres frPo using fr_saveState
  all_goals frs
theorem fr_handlePrevoteReq (req : Req) : Pres Fr (handlePrevoteReq req) := by
  unfold handlePrevoteReq
  pres frPo using fr_emit
  all_goals frs
theorem fr_isLeader  : Pres Fr (isLeader) := by
  unfold isLeader
  pres frPo using fr_emit
  all_goals frs
theorem fr_appendClient (es : List Entry) : Pres Fr (appendClient es) := by
  induction es with
  | nil => exact pres_pure frPo _
  | cons e es ih =>
    intro s
    unfold appendClient
    rw [bind_get]
    have h1 : ∀ e, logAppend e s = (.ok ⟨⟩, { s with log := s.log.append e, trace := s.trace ++ [.append e] }) := fun _ => rfl
    have h2 : ∀ (e : Eff) (s : Srv), emit e s = (.ok ⟨⟩, { s with trace := s.trace ++ [e] }) := fun _ _ => rfl
    rw [run_bind_ok (h1 _), run_bind_ok (h2 _ _)]
    refine frPo.trans ?_ (ih _)
    exact fr_app (e := { e with term := s.term }) rfl rfl rfl
theorem fr_addPeer (c : SrvCfg) : Pres Fr (addPeer c) := by
  unfold addPeer
  pres frPo using fr_modPeer, fr_enableHb
  all_goals frs
theorem fr_removePeer (c : Config) (id : Int) : Pres Fr (removePeer c id) := by
  unfold removePeer
  pres frPo using fr_emit, fr_die
  all_goals frs
theorem fr_reconfigure (c : Config) : Pres Fr (reconfigure c) := by
  unfold reconfigure
  pres frPo using fr_addPeer, fr_removePeer
  all_goals frs
theorem fr_hearSnapshotLeader (req : Req) : Pres Fr (hearSnapshotLeader req) := by
  unfold hearSnapshotLeader
  pres frPo using fr_die, fr_restartElectionTimer, fr_becomeFollower
  all_goals frs
theorem fr_handleRmSrv (req : Req) : Pres Fr (handleRmSrv req) := by
  unfold handleRmSrv
  pres frPo using fr_emit
  all_goals frs
theorem fr_inviteSrv  : Pres Fr (inviteSrv) := by
  unfold inviteSrv
  pres frPo using fr_emit, fr_getPeer
  all_goals frs
theorem fr_handleAddSrv (req : Req) : Pres Fr (handleAddSrv req) := by
  unfold handleAddSrv
  pres frPo using fr_inviteSrv
  all_goals frs
theorem fr_handleJoin (req : Req) : Pres Fr (handleJoin req) := by
  unfold handleJoin
  pres frPo using fr_saveState, fr_reconfigure
  all_goals frs
theorem fr_handleLeave (req : Req) : Pres Fr (handleLeave req) := by
  unfold handleLeave
  pres frPo using fr_emit
  all_goals frs
theorem fr_hearTerm (req : Req) : Pres Fr (hearTerm req) := by
  unfold hearTerm
  pres frPo using fr_updateTerm
  all_goals frs
theorem fr_acceptedResp (resp : Resp) : Pres Fr (acceptedResp resp) := by
  unfold acceptedResp
  pres frPo using fr_modPeer, fr_getPeer, fr_commit
  all_goals frs
theorem fr_refusedResp (resp : Resp) : Pres Fr (refusedResp resp) := by
  unfold refusedResp
  pres frPo using fr_modPeer
  all_goals frs
theorem fr_handleAppendResp (resp : Resp) : Pres Fr (handleAppendResp resp) := by
  unfold handleAppendResp
  pres frPo using fr_requestAppendTo, fr_acceptedResp, fr_refusedResp
  all_goals frs
theorem fr_acceptedSnpResp (resp : Resp) : Pres Fr (acceptedSnpResp resp) := by
  unfold acceptedSnpResp
  pres frPo using fr_modPeer, fr_getPeer
  all_goals frs
theorem fr_handleSnpResp (resp : Resp) : Pres Fr (handleSnpResp resp) := by
  unfold handleSnpResp
  pres frPo using fr_requestAppendTo, fr_acceptedSnpResp
  all_goals frs
theorem fr_handleVotingResp (resp : Resp) : Pres Fr (handleVotingResp resp) := by
  unfold handleVotingResp
  pres frPo using fr_becomeLeader
  all_goals frs
theorem fr_dispatchResp (resp : Resp) : Pres Fr (dispatchResp resp) := by
  unfold dispatchResp
  pres frPo using fr_die, fr_handleAppendResp, fr_handleSnpResp, fr_handleVotingResp
  all_goals frs
theorem fr_handlePeerResp (resp : Resp) : Pres Fr (handlePeerResp resp) := by
  unfold handlePeerResp
  pres frPo using fr_modPeer, fr_updateTerm, fr_dispatchResp
  all_goals frs
theorem fr_handlePrevoteResp (resp : Resp) : Pres Fr (handlePrevoteResp resp) := by
  unfold handlePrevoteResp
  pres frPo using fr_restartElectionTimer, fr_becomeCandidate
  all_goals frs
theorem fr_seq1 (e : Entry) (he : e.isConf = true) {k : R Unit} (hk : Pres Fr k) :
    Pres Fr (do logAppend e; modify (fun s => { s with configChanging := true }); k : R Unit) := fun s =>
  frPo.trans (b := { s with log := s.log.append e, trace := s.trace ++ [.append e], configChanging := true })
    (fr_add (e := e) rfl rfl he) (hk _)
theorem fr_addToConfig : Pres Fr addToConfig := by
  unfold addToConfig
  refine pres_bind frPo (pres_get frPo) fun s => ?_
  split
  · exact pres_throw frPo _
  · exact fr_seq1 _ rfl fr_requestAppendAll
theorem fr_syncLogToNewSrv (start : Nat) : Pres Fr (syncLogToNewSrv start) := by
  unfold syncLogToNewSrv
  pres frPo using fr_emit, fr_addToConfig, fr_getPeer, fr_createSyncSnapshotReq
  all_goals frs
theorem fr_seq2 (e : Entry) (he : e.isConf = true) {k : R Unit} (hk : Pres Fr k) :
    Pres Fr (do modify (fun s => { s with configChanging := true }); logAppend e; k : R Unit) := fun s =>
  frPo.trans (b := { s with log := s.log.append e, trace := s.trace ++ [.append e], configChanging := true })
    (fr_add (e := e) rfl rfl he) (hk _)
theorem fr_rmSrvFromCluster (id : Int) : Pres Fr (rmSrvFromCluster id) := by
  unfold rmSrvFromCluster
  exact pres_bind frPo (pres_get frPo) fun s => fr_seq2 _ rfl fr_requestAppendAll
theorem fr_handleExtSnpResp (resp : Resp) : Pres Fr (handleExtSnpResp resp) := by
  unfold handleExtSnpResp
  pres frPo using fr_die, fr_modPeer, fr_getPeer, fr_syncLogToNewSrv
  all_goals frs
theorem fr_handleExtResp (resp : Resp) : Pres Fr (handleExtResp resp) := by
  unfold handleExtResp
  pres frPo using fr_die, fr_modPeer, fr_rmSrvFromCluster, fr_handlePrevoteResp, fr_syncLogToNewSrv, fr_handleExtSnpResp
  all_goals frs
theorem fr_forceRemove (id : Int) : Pres Fr (forceRemove id) := by
  unfold forceRemove
  pres frPo using fr_rmSrvFromCluster
  all_goals frs
theorem fr_handleExtErr (req : Req) : Pres Fr (handleExtErr req) := by
  unfold handleExtErr
  pres frPo using fr_modPeer, fr_forceRemove
  all_goals frs
theorem fr_retryReq (req : Req) : Pres Fr (retryReq req) := by
  unfold retryReq
  pres frPo using fr_emit
  all_goals frs
theorem fr_rpcResult (r : PeerRef) (ty : MsgType) (ok : Bool) : Pres Fr (rpcResult r ty ok) := by
  unfold rpcResult
  pres frPo using fr_modPeer
  all_goals frs
theorem fr_commitConf (c : Config) : Pres Fr (commitConf c) := by
  unfold commitConf
  pres frPo using fr_emit, fr_reconfigure
  all_goals frs
theorem fr_findConf (idx n : Nat) (c : Config) : Pres Fr (findConf idx n c) := by
  induction n generalizing c with
  | zero => exact pres_throw frPo _
  | succ n ih =>
    unfold findConf
    pres frPo using fr_entryAt, fr_die, ih
    all_goals frs
theorem fr_confForSnap (idx : Nat) : Pres Fr (confForSnap idx) := by
  unfold confForSnap
  pres frPo using fr_die, fr_findConf
  all_goals frs
theorem fr_startSnapshot (idx : Nat) : Pres Fr (startSnapshot idx) := by
  unfold startSnapshot
  pres frPo using fr_emit, fr_termAt, fr_confForSnap
  all_goals frs
theorem fr_snapshotAndCompact (idx : Nat) : Pres Fr (snapshotAndCompact idx) := by
  unfold snapshotAndCompact
  pres frPo using fr_startSnapshot
  all_goals frs
theorem fr_keepSnap (snp : Snap) : Pres Fr (keepSnap snp) := by
  unfold keepSnap
  pres frPo using fr_emit
  all_goals frs
theorem fr_applyEntry (i : Nat) (e : Entry) : Pres Fr (applyEntry i e) := by
  unfold applyEntry
  pres frPo using fr_emit, fr_commitConf
  all_goals frs

end Cs.Raft
