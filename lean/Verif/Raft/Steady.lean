import Verif.Raft.Pres
import Verif.Raft.Frame

/-!
# What no handler changes

`Steady`: identity, parameters and application stay as they are, and so does the counter of a server that leaves, except in three
handlers.
-/

set_option linter.unusedSectionVars false

namespace Cs.Raft
open Cs

/-- See above. -/
structure Steady (s s' : Srv) : Prop where
  id : s'.id = s.id
  params : s'.params = s.params
  env : s'.env = s.env
  down : s'.stepsToDown = s.stepsToDown

theorem stPo : PO Steady :=
  ⟨fun _ => ⟨rfl, rfl, rfl, rfl⟩, fun h1 h2 => ⟨h2.1.trans h1.1, h2.2.trans h1.2, h2.3.trans h1.3, h2.4.trans h1.4⟩⟩

theorem st_mod {f : Srv → Srv} (h : ∀ s, Steady s (f s)) : Pres Steady (modify f : R PUnit) := fun s => h s
theorem st_emit (e : Eff) : Pres Steady (emit e) := fun _ => ⟨rfl, rfl, rfl, rfl⟩
theorem st_modPeer (r : PeerRef) (f : Peer → Peer) : Pres Steady (modPeer r f) := fun s => by
  cases r <;> exact ⟨rfl, rfl, rfl, rfl⟩

/-- The primitive updates. -/
macro "st" : tactic => `(tactic| first | exact st_mod fun _ => ⟨rfl, rfl, rfl, rfl⟩ | exact st_mod fun _ => (by split <;> exact ⟨rfl, rfl, rfl, rfl⟩) | exact ⟨rfl, rfl, rfl, rfl⟩ | (intro _; exact ⟨rfl, rfl, rfl, rfl⟩))

theorem st_die {α : Type} (c : Int) : Pres Steady (die c : R α) := by
  unfold die
  pres stPo using st_emit
  all_goals st
theorem st_saveState  : Pres Steady (saveState) := by
  unfold saveState
  pres stPo using st_emit
  all_goals st
theorem st_getPeer (r : PeerRef) : Pres Steady (getPeer r) := by
  unfold getPeer
  pres stPo using st_emit
  all_goals st
theorem st_peerIds  : Pres Steady (peerIds) := by
  unfold peerIds
  pres stPo using st_emit
  all_goals st
theorem st_logAppend (e : Entry) : Pres Steady (logAppend e) := by
  unfold logAppend
  pres stPo using st_emit
  all_goals st
theorem st_logWriteAt (i : Nat) (e : Entry) : Pres Steady (logWriteAt i e) := by
  unfold logWriteAt
  pres stPo using st_emit
  all_goals st
theorem st_termAt (i : Nat) : Pres Steady (termAt i) := by
  unfold termAt
  pres stPo using st_emit
  all_goals st
theorem st_entryAt (i : Nat) : Pres Steady (entryAt i) := by
  unfold entryAt
  pres stPo using st_emit
  all_goals st
theorem st_entryToApply (i : Nat) : Pres Steady (entryToApply i) := by
  unfold entryToApply
  pres stPo using st_die
  all_goals st
theorem st_logApplyPack (i : Nat) (es : List Entry) : Pres Steady (logApplyPack i es) := by
  unfold logApplyPack
  pres stPo using st_emit
  all_goals st
theorem st_logCompact (i : Nat) : Pres Steady (logCompact i) := by
  unfold logCompact
  pres stPo using st_emit
  all_goals st
theorem st_termForLog (i : Nat) : Pres Steady (termForLog i) := by
  unfold termForLog
  pres stPo using st_die, st_termAt
  all_goals st
theorem st_restartElectionTimer  : Pres Steady (restartElectionTimer) := by
  unfold restartElectionTimer
  pres stPo using st_emit
  all_goals st
theorem st_stopElectionTimer  : Pres Steady (stopElectionTimer) := by
  unfold stopElectionTimer
  pres stPo using st_emit
  all_goals st
theorem st_enableHb (r : PeerRef) : Pres Steady (enableHb r) := by
  unfold enableHb
  pres stPo using st_modPeer
  all_goals st
theorem st_becomeFollower  : Pres Steady (becomeFollower) := by
  unfold becomeFollower
  pres stPo using st_emit, st_restartElectionTimer
  all_goals st
theorem st_updateTerm (term : Nat) : Pres Steady (updateTerm term) := by
  unfold updateTerm
  pres stPo using st_saveState, st_becomeFollower
  all_goals st
theorem st_chooseSnap (r : PeerRef) (lastIdx : Nat) : Pres Steady (chooseSnap r lastIdx) := by
  unfold chooseSnap
  pres stPo using st_die, st_modPeer, st_getPeer
  all_goals st
theorem st_createSyncSnapshotReq (r : PeerRef) (lastIdx term commitIdx : Nat) : Pres Steady (createSyncSnapshotReq r lastIdx term commitIdx) := by
  unfold createSyncSnapshotReq
  pres stPo using st_die, st_getPeer, st_chooseSnap
  all_goals st
theorem st_entriesFrom (last : Nat) : Pres Steady (entriesFrom last) := by
  unfold entriesFrom
  pres stPo using st_emit
  all_goals st
theorem st_appendReqFrom (r : PeerRef) (last : Nat) : Pres Steady (appendReqFrom r last) := by
  unfold appendReqFrom
  pres stPo using st_getPeer, st_termForLog, st_entriesFrom
  all_goals st
theorem st_createAppendReq (r : PeerRef) : Pres Steady (createAppendReq r) := by
  unfold createAppendReq
  pres stPo using st_die, st_modPeer, st_getPeer, st_createSyncSnapshotReq, st_appendReqFrom
  all_goals st
theorem st_requestAppend (r : PeerRef) : Pres Steady (requestAppend r) := by
  unfold requestAppend
  pres stPo using st_emit, st_modPeer, st_getPeer, st_createAppendReq
  all_goals st
theorem st_commitNotify (id : Int) : Pres Steady (commitNotify id) := by
  unfold commitNotify
  pres stPo using st_modPeer, st_requestAppend
  all_goals st
theorem st_commit (target : Nat) : Pres Steady (commit target) := by
  unfold commit
  pres stPo using st_emit, st_peerIds, st_commitNotify
  all_goals st
theorem st_requestAppendTo (id : Int) : Pres Steady (requestAppendTo id) := by
  unfold requestAppendTo
  pres stPo using st_requestAppend
  all_goals st
theorem st_requestAppendAll  : Pres Steady (requestAppendAll) := by
  unfold requestAppendAll
  pres stPo using st_peerIds, st_commit, st_requestAppendTo
  all_goals st
theorem st_leaderPeer (id : Int) : Pres Steady (leaderPeer id) := by
  unfold leaderPeer
  pres stPo using st_modPeer, st_enableHb
  all_goals st
theorem st_initialConf  : Pres Steady (initialConf) := by
  unfold initialConf
  pres stPo using st_logAppend
  all_goals st
theorem st_becomeLeader  : Pres Steady (becomeLeader) := by
  unfold becomeLeader
  pres stPo using st_emit, st_peerIds, st_stopElectionTimer, st_requestAppendAll, st_leaderPeer, st_initialConf
  all_goals st
theorem st_askVote (ty : MsgType) (id : Int) : Pres Steady (askVote ty id) := by
  unfold askVote
  pres stPo using st_emit, st_termForLog
  all_goals st
theorem st_voteSelf  : Pres Steady (voteSelf) := by
  unfold voteSelf
  pres stPo using st_saveState
  all_goals st
theorem st_askForVotes  : Pres Steady (askForVotes) := by
  unfold askForVotes
  pres stPo using st_peerIds, st_becomeLeader, st_askVote
  all_goals st
theorem st_requestVote  : Pres Steady (requestVote) := by
  unfold requestVote
  pres stPo using st_voteSelf, st_askForVotes
  all_goals st
theorem st_startTerm  : Pres Steady (startTerm) := by
  unfold startTerm
  pres stPo using st_saveState
  all_goals st
theorem st_rearm  : Pres Steady (rearm) := by
  unfold rearm
  pres stPo using st_restartElectionTimer
  all_goals st
theorem st_becomeCandidate  : Pres Steady (becomeCandidate) := by
  unfold becomeCandidate
  pres stPo using st_requestVote, st_startTerm, st_rearm
  all_goals st
theorem st_requestPrevote  : Pres Steady (requestPrevote) := by
  unfold requestPrevote
  pres stPo using st_peerIds, st_askVote, st_becomeCandidate
  all_goals st
theorem st_leaveConfig  : Pres Steady (leaveConfig) := by
  unfold leaveConfig
  pres stPo using st_emit
  all_goals st
theorem st_handleHbTimeout (r : PeerRef) : Pres Steady (handleHbTimeout r) := by
  unfold handleHbTimeout
  pres stPo using st_modPeer, st_requestAppend
  all_goals st
theorem st_skipSame (idx : Nat) (es : List Entry) : Pres Steady (skipSame idx es) := by
  induction es generalizing idx with
  | nil => exact pres_pure stPo _
  | cons e es ih =>
    unfold skipSame
    pres stPo using st_termAt, ih
    all_goals st
theorem st_rollbackOld (idx : Nat) : Pres Steady (rollbackOld idx) := by
  unfold rollbackOld
  pres stPo using st_emit, st_entryAt
  all_goals st
theorem st_noteNew (idx : Nat) (e : Entry) : Pres Steady (noteNew idx e) := by
  unfold noteNew
  pres stPo using st_emit
  all_goals st
theorem st_overwriteOld (idx : Nat) (es : List Entry) : Pres Steady (overwriteOld idx es) := by
  induction es generalizing idx with
  | nil => exact pres_pure stPo _
  | cons e es ih =>
    unfold overwriteOld
    pres stPo using st_rollbackOld, st_noteNew, st_logWriteAt, st_emit, ih
    all_goals st
theorem st_appendNew (es : List Entry) : Pres Steady (appendNew es) := by
  induction es with
  | nil => exact pres_pure stPo _
  | cons e es ih =>
    unfold appendNew
    pres stPo using st_logAppend, st_noteNew, st_emit, ih
    all_goals st
theorem st_storeEntries (req : Req) : Pres Steady (storeEntries req) := by
  unfold storeEntries
  pres stPo using st_skipSame, st_overwriteOld, st_appendNew
  all_goals st
theorem st_hearLeader (req : Req) : Pres Steady (hearLeader req) := by
  unfold hearLeader
  pres stPo using st_die, st_restartElectionTimer, st_becomeFollower
  all_goals st
theorem st_logOkay (req : Req) : Pres Steady (logOkay req) := by
  unfold logOkay
  pres stPo using st_termForLog
  all_goals st
theorem st_handleAppendEntries (req : Req) : Pres Steady (handleAppendEntries req) := by
  unfold handleAppendEntries
  pres stPo using st_commit, st_storeEntries, st_hearLeader, st_logOkay
  all_goals st
theorem st_handleVoteReq (req : Req) : Pres Steady (handleVoteReq req) := by
  unfold handleVoteReq
  pres stPo using st_saveState
  all_goals st
theorem st_handlePrevoteReq (req : Req) : Pres Steady (handlePrevoteReq req) := by
  unfold handlePrevoteReq
  pres stPo using st_emit
  all_goals st
theorem st_isLeader  : Pres Steady (isLeader) := by
  unfold isLeader
  pres stPo using st_emit
  all_goals st
theorem st_appendClient (es : List Entry) : Pres Steady (appendClient es) := by
  induction es with
  | nil => exact pres_pure stPo _
  | cons e es ih =>
    unfold appendClient
    pres stPo using st_logAppend, st_noteNew, st_emit, ih
    all_goals st
theorem st_handleCliReq (req : Req) : Pres Steady (handleCliReq req) := by
  unfold handleCliReq
  pres stPo using st_requestAppendAll, st_isLeader, st_appendClient
  all_goals st
theorem st_addPeer (c : SrvCfg) : Pres Steady (addPeer c) := by
  unfold addPeer
  pres stPo using st_modPeer, st_enableHb
  all_goals st
theorem st_removePeer (c : Config) (id : Int) : Pres Steady (removePeer c id) := by
  unfold removePeer
  pres stPo using st_emit, st_die
  all_goals st
theorem st_reconfigure (c : Config) : Pres Steady (reconfigure c) := by
  unfold reconfigure
  pres stPo using st_addPeer, st_removePeer
  all_goals st
theorem st_installSnapshot (snp : Snap) : Pres Steady (installSnapshot snp) := by
  unfold installSnapshot
  pres stPo using st_emit, st_die, st_saveState, st_logCompact, st_restartElectionTimer, st_stopElectionTimer, st_reconfigure
  all_goals st
theorem st_handleSnapshotSync (q : SnpSync) : Pres Steady (handleSnapshotSync q) := by
  unfold handleSnapshotSync
  pres stPo using st_emit, st_die, st_installSnapshot
  all_goals st
theorem st_hearSnapshotLeader (req : Req) : Pres Steady (hearSnapshotLeader req) := by
  unfold hearSnapshotLeader
  pres stPo using st_die, st_restartElectionTimer, st_becomeFollower
  all_goals st
theorem st_handleInstallSnapshot (req : Req) : Pres Steady (handleInstallSnapshot req) := by
  unfold handleInstallSnapshot
  pres stPo using st_handleSnapshotSync, st_hearSnapshotLeader
  all_goals st
theorem st_handleRmSrv (req : Req) : Pres Steady (handleRmSrv req) := by
  unfold handleRmSrv
  pres stPo using st_emit
  all_goals st
theorem st_inviteSrv  : Pres Steady (inviteSrv) := by
  unfold inviteSrv
  pres stPo using st_emit, st_getPeer
  all_goals st
theorem st_handleAddSrv (req : Req) : Pres Steady (handleAddSrv req) := by
  unfold handleAddSrv
  pres stPo using st_inviteSrv
  all_goals st
theorem st_handleLogSync (req : Req) : Pres Steady (handleLogSync req) := by
  unfold handleLogSync
  pres stPo using st_logApplyPack, st_commit
  all_goals st
theorem st_handleJoin (req : Req) : Pres Steady (handleJoin req) := by
  unfold handleJoin
  pres stPo using st_saveState, st_reconfigure
  all_goals st
theorem st_acceptedResp (resp : Resp) : Pres Steady (acceptedResp resp) := by
  unfold acceptedResp
  pres stPo using st_modPeer, st_getPeer, st_commit
  all_goals st
theorem st_refusedResp (resp : Resp) : Pres Steady (refusedResp resp) := by
  unfold refusedResp
  pres stPo using st_modPeer
  all_goals st
theorem st_handleAppendResp (resp : Resp) : Pres Steady (handleAppendResp resp) := by
  unfold handleAppendResp
  pres stPo using st_requestAppendTo, st_acceptedResp, st_refusedResp
  all_goals st
theorem st_acceptedSnpResp (resp : Resp) : Pres Steady (acceptedSnpResp resp) := by
  unfold acceptedSnpResp
  pres stPo using st_modPeer, st_getPeer
  all_goals st
theorem st_handleSnpResp (resp : Resp) : Pres Steady (handleSnpResp resp) := by
  unfold handleSnpResp
  pres stPo using st_requestAppendTo, st_acceptedSnpResp
  all_goals st
theorem st_handleVotingResp (resp : Resp) : Pres Steady (handleVotingResp resp) := by
  unfold handleVotingResp
  pres stPo using st_becomeLeader
  all_goals st
theorem st_dispatchResp (resp : Resp) : Pres Steady (dispatchResp resp) := by
  unfold dispatchResp
  pres stPo using st_die, st_handleAppendResp, st_handleSnpResp, st_handleVotingResp
  all_goals st
theorem st_handlePeerResp (resp : Resp) : Pres Steady (handlePeerResp resp) := by
  unfold handlePeerResp
  pres stPo using st_modPeer, st_updateTerm, st_dispatchResp
  all_goals st
theorem st_handlePrevoteResp (resp : Resp) : Pres Steady (handlePrevoteResp resp) := by
  unfold handlePrevoteResp
  pres stPo using st_restartElectionTimer, st_becomeCandidate
  all_goals st
theorem st_addToConfig  : Pres Steady (addToConfig) := by
  unfold addToConfig
  pres stPo using st_logAppend, st_requestAppendAll
  all_goals st
theorem st_syncLogToNewSrv (start : Nat) : Pres Steady (syncLogToNewSrv start) := by
  unfold syncLogToNewSrv
  pres stPo using st_emit, st_getPeer, st_createSyncSnapshotReq, st_addToConfig
  all_goals st
theorem st_rmSrvFromCluster (id : Int) : Pres Steady (rmSrvFromCluster id) := by
  unfold rmSrvFromCluster
  pres stPo using st_logAppend, st_requestAppendAll
  all_goals st
theorem st_handleExtSnpResp (resp : Resp) : Pres Steady (handleExtSnpResp resp) := by
  unfold handleExtSnpResp
  pres stPo using st_die, st_modPeer, st_getPeer, st_syncLogToNewSrv
  all_goals st
theorem st_handleExtResp (resp : Resp) : Pres Steady (handleExtResp resp) := by
  unfold handleExtResp
  pres stPo using st_die, st_modPeer, st_handlePrevoteResp, st_syncLogToNewSrv, st_rmSrvFromCluster, st_handleExtSnpResp
  all_goals st
theorem st_forceRemove (id : Int) : Pres Steady (forceRemove id) := by
  unfold forceRemove
  pres stPo using st_rmSrvFromCluster
  all_goals st
theorem st_handleExtErr (req : Req) : Pres Steady (handleExtErr req) := by
  unfold handleExtErr
  pres stPo using st_modPeer, st_forceRemove
  all_goals st
theorem st_retryReq (req : Req) : Pres Steady (retryReq req) := by
  unfold retryReq
  pres stPo using st_emit
  all_goals st
theorem st_rpcResult (r : PeerRef) (ty : MsgType) (ok : Bool) : Pres Steady (rpcResult r ty ok) := by
  unfold rpcResult
  pres stPo using st_modPeer
  all_goals st
theorem st_commitConf (c : Config) : Pres Steady (commitConf c) := by
  unfold commitConf
  pres stPo using st_emit, st_reconfigure
  all_goals st
theorem st_findConf (idx n : Nat) (c : Config) : Pres Steady (findConf idx n c) := by
  induction n generalizing c with
  | zero => exact pres_throw stPo _
  | succ n ih =>
    unfold findConf
    pres stPo using st_entryAt, st_die, ih
    all_goals st
theorem st_confForSnap (idx : Nat) : Pres Steady (confForSnap idx) := by
  unfold confForSnap
  pres stPo using st_die, st_findConf
  all_goals st
theorem st_startSnapshot (idx : Nat) : Pres Steady (startSnapshot idx) := by
  unfold startSnapshot
  pres stPo using st_emit, st_termAt, st_confForSnap
  all_goals st
theorem st_snapshotAndCompact (idx : Nat) : Pres Steady (snapshotAndCompact idx) := by
  unfold snapshotAndCompact
  pres stPo using st_startSnapshot
  all_goals st
theorem st_keepSnap (snp : Snap) : Pres Steady (keepSnap snp) := by
  unfold keepSnap
  pres stPo using st_emit
  all_goals st
theorem st_onSnapshotCompleted (snp : Snap) (ok : Bool) : Pres Steady (onSnapshotCompleted snp ok) := by
  unfold onSnapshotCompleted
  pres stPo using st_logCompact
  all_goals st
theorem st_applyEntry (i : Nat) (e : Entry) : Pres Steady (applyEntry i e) := by
  unfold applyEntry
  pres stPo using st_emit, st_commitConf
  all_goals st
theorem st_applyOne  : Pres Steady (applyOne) := by
  unfold applyOne
  pres stPo using st_entryToApply, st_snapshotAndCompact, st_applyEntry
  all_goals st
theorem st_replicateLog (data : Nat) : Pres Steady (replicateLog data) := by
  unfold replicateLog
  pres stPo using st_logAppend, st_requestAppendAll, st_isLeader
  all_goals st

/-- Every input but these is covered. -/
def Input.steady : Input → Bool
  | .electionTimeout => false
  | .req r => !(r.type == .appendReq || r.type == .voteReq || r.type == .snpReq || r.type == .leaveReq)
  | _ => true

theorem st_dispatch (r : Req) (h : r.type ≠ .leaveReq) : Pres Steady (dispatch r) := by
  unfold dispatch handleExtended
  pres stPo using st_handleAppendEntries, st_handleVoteReq, st_handleCliReq, st_handleAddSrv, st_handleRmSrv, st_handleLogSync,
    st_handlePrevoteReq, st_die, st_handleJoin, st_handleInstallSnapshot
  all_goals exact absurd ‹_› h

theorem st_run {x : Input} (hx : x.steady = true) : Pres Steady x.run := by
  cases x with
  | req r =>
    show Pres _ (processReq r >>= fun resp => emit (.reply resp))
    have hr : (!(r.type == .appendReq || r.type == .voteReq || r.type == .snpReq || r.type == .leaveReq)) = true := hx
    simp only [Bool.not_eq_true', Bool.or_eq_false_iff, beq_eq_false_iff_ne] at hr
    unfold processReq hearTerm
    rw [if_neg (by rintro (h | h | h); exact hr.1.1.1 h; exact hr.1.1.2 h; exact hr.1.2 h)]
    exact pres_bind stPo (pres_bind stPo (pres_pure stPo _) fun _ => st_dispatch r hr.2) fun q => st_emit _
  | peerResp ty r => exact pres_bind stPo (st_rpcResult _ _ _) fun _ => st_handlePeerResp r
  | extResp p ty r => exact pres_bind stPo (st_rpcResult _ _ _) fun _ => st_handleExtResp r
  | peerErr r => exact st_rpcResult _ _ _
  | extErr p r => exact pres_bind stPo (st_rpcResult _ _ _) fun _ => st_handleExtErr r
  | retry r => exact st_retryReq r
  | electionTimeout => cases hx
  | hbTimeout id => exact st_handleHbTimeout _
  | apply => exact st_applyOne
  | snapDone q ok =>
    exact pres_ite (pres_bind stPo (st_keepSnap q) fun _ => st_onSnapshotCompleted q true) (st_onSnapshotCompleted q false)
  | replicate d => exact pres_bind stPo (st_replicateLog d) fun _ => pres_pure stPo _
  | tick n => exact st_mod fun s => ⟨rfl, rfl, rfl, rfl⟩

end Cs.Raft
