import Verif.Raft.Commits
import Verif.Raft.Steps

/-!
# How a server stops being leader

Handlers raise the term, or keep it; and while a leader keeps its term it stays leader. Invitations to join a cluster are
excepted.
-/

namespace Cs.Raft
open Cs

/-- The term does not fall, and a leader that keeps its term stays leader. -/
def Stay (s s' : Srv) : Prop := s.term ≤ s'.term ∧ (s.role = .leader → s'.term = s.term → s'.role = .leader)

theorem stayPo : PO Stay where
  refl _ := ⟨Nat.le_refl _, fun h _ => h⟩
  trans := fun {a b c} h1 h2 => ⟨Nat.le_trans h1.1 h2.1, fun hr ht => by
    have e1 : b.term = a.term := Nat.le_antisymm (ht ▸ h2.1) h1.1
    exact h2.2 (h1.2 hr e1) (ht.trans e1.symm)⟩

theorem Stay.calm {s s' : Srv} (h1 : s'.role = s.role) (h2 : s'.term = s.term) : Stay s s' :=
  ⟨Nat.le_of_eq h2.symm, fun h _ => h1.trans h⟩

theorem Stay.raise {s s' : Srv} (h : s.term < s'.term) : Stay s s' :=
  ⟨Nat.le_of_lt h, fun _ e => absurd (e ▸ h) (Nat.lt_irrefl _)⟩

theorem rl_mod {f : Srv → Srv} (h : ∀ s, Stay s (f s)) : Pres Stay (modify f : R PUnit) := fun s => h s

theorem rl_emit (e : Eff) : Pres Stay (emit e) := fun _ => Stay.calm rfl rfl

theorem rl_modPeer (r : PeerRef) (f : Peer → Peer) : Pres Stay (modPeer r f) := fun s => by
  cases r with
  | member id => exact Stay.calm rfl rfl
  | joining => exact Stay.calm rfl rfl

theorem Stay.lead {s s' : Srv} (h1 : s'.role = .leader) (h2 : s'.term = s.term) : Stay s s' :=
  ⟨Nat.le_of_eq h2.symm, fun _ _ => h1⟩

/-- The primitive updates. -/
macro "rl" : tactic => `(tactic| first | rfl | exact Stay.calm rfl rfl | exact Stay.lead rfl rfl | (split <;> exact Stay.calm rfl rfl))

theorem rl_die {α : Type} (c : Int) : Pres Stay (die c : R α) := by
  unfold die
  pres stayPo using rl_emit
  all_goals rl
theorem rl_saveState : Pres Stay saveState := fun _ => Stay.calm rfl rfl
theorem rl_getPeer (r : PeerRef) : Pres Stay (getPeer r) := by
  unfold getPeer
  pres stayPo using rl_die
  all_goals rl
theorem rl_peerIds : Pres Stay peerIds := fun s => stayPo.refl s
theorem rl_termAt (i : Nat) : Pres Stay (termAt i) := by
  unfold termAt
  pres stayPo using rl_die
  all_goals rl
theorem rl_termForLog (i : Nat) : Pres Stay (termForLog i) := by
  unfold termForLog
  pres stayPo using rl_die, rl_termAt
  all_goals rl
theorem rl_chooseSnap (r : PeerRef) (i : Nat) : Pres Stay (chooseSnap r i) := by
  unfold chooseSnap
  pres stayPo using rl_die, rl_getPeer, rl_modPeer
theorem rl_createSyncReq (r : PeerRef) (i t c : Nat) : Pres Stay (createSyncSnapshotReq r i t c) := by
  unfold createSyncSnapshotReq
  pres stayPo using rl_die, rl_getPeer, rl_chooseSnap
theorem rl_createSync (i t c : Nat) : Pres Stay (createSyncSnapshotReq .joining i t c >>= fun q => emit (.send q)) :=
  pres_bind stayPo (rl_createSyncReq _ i t c) fun _ => rl_emit _
theorem rl_entriesFrom (i : Nat) : Pres Stay (entriesFrom i) := by
  unfold entriesFrom
  pres stayPo using rl_die
theorem rl_appendReqFrom (r : PeerRef) (i : Nat) : Pres Stay (appendReqFrom r i) := by
  unfold appendReqFrom
  pres stayPo using rl_termForLog, rl_entriesFrom, rl_getPeer
theorem rl_createAppendReq (r : PeerRef) : Pres Stay (createAppendReq r) := by
  unfold createAppendReq
  pres stayPo using rl_die, rl_getPeer, rl_modPeer, rl_createSyncReq, rl_appendReqFrom
theorem rl_requestAppend (r : PeerRef) : Pres Stay (requestAppend r) := by
  unfold requestAppend
  pres stayPo using rl_getPeer, rl_modPeer, rl_createAppendReq, rl_emit
theorem rl_commitNotify (id : Int) : Pres Stay (commitNotify id) := by
  unfold commitNotify
  pres stayPo using rl_requestAppend, rl_modPeer
  all_goals rl
theorem rl_requestAppendTo (id : Int) : Pres Stay (requestAppendTo id) := by
  unfold requestAppendTo
  pres stayPo using rl_requestAppend
  all_goals rl
theorem rl_askVote (ty : MsgType) (id : Int) : Pres Stay (askVote ty id) := by
  unfold askVote
  pres stayPo using rl_termForLog, rl_emit
theorem rl_entryAt (i : Nat) : Pres Stay (entryAt i) := by
  unfold entryAt
  pres stayPo using rl_die
  all_goals rl
theorem rl_entryToApply (i : Nat) : Pres Stay (entryToApply i) := by
  unfold entryToApply
  pres stayPo using rl_die
  all_goals rl
theorem rl_restart : Pres Stay restartElectionTimer := by
  unfold restartElectionTimer
  pres stayPo using rl_mod
  all_goals rl
theorem rl_stop : Pres Stay stopElectionTimer := by
  unfold stopElectionTimer
  pres stayPo using rl_mod
  all_goals rl
theorem rl_enableHb (r : PeerRef) : Pres Stay (enableHb r) := by
  unfold enableHb
  pres stayPo using rl_modPeer
theorem rl_leaderPeer (id : Int) : Pres Stay (leaderPeer id) := by
  unfold leaderPeer
  pres stayPo using rl_modPeer, rl_enableHb
theorem stay_stepDown {s : Srv} (h : s.role ≠ .leader) : Stay s s.stepDown := ⟨Nat.le_refl _, fun e _ => absurd e h⟩
theorem rl_commit (n : Nat) : Pres Stay (commit n) := by
  unfold commit
  pres stayPo using rl_mod, rl_emit, rl_peerIds, rl_commitNotify
  all_goals rl
theorem rl_requestAppendAll : Pres Stay requestAppendAll := by
  unfold requestAppendAll
  pres stayPo using rl_commit, rl_peerIds, rl_requestAppendTo
  all_goals rl
theorem rl_logAppend (e : Entry) : Pres Stay (logAppend e) := by
  unfold logAppend
  pres stayPo using rl_mod, rl_emit
  all_goals rl
theorem rl_logWriteAt (i : Nat) (e : Entry) : Pres Stay (logWriteAt i e) := by
  unfold logWriteAt
  pres stayPo using rl_mod, rl_emit
  all_goals rl
theorem rl_logApplyPack (i : Nat) (es : List Entry) : Pres Stay (logApplyPack i es) := by
  unfold logApplyPack
  pres stayPo using rl_mod, rl_emit
  all_goals rl
theorem rl_logCompact (i : Nat) : Pres Stay (logCompact i) := by
  unfold logCompact
  pres stayPo using rl_mod, rl_emit
  all_goals rl
theorem rl_initialConf : Pres Stay initialConf := by
  unfold initialConf
  pres stayPo using rl_mod, rl_logAppend
  all_goals rl
theorem rl_noJoin : Pres Stay (modify fun s : Srv => { s with srvToJoin := none } : R PUnit) :=
  fun _ => Stay.calm rfl rfl
theorem rl_becomeLeader : Pres Stay becomeLeader := by
  unfold becomeLeader
  pres stayPo using rl_noJoin, rl_mod, rl_emit, rl_peerIds, rl_leaderPeer, rl_initialConf, rl_requestAppendAll, rl_stop
  all_goals rl
theorem rl_updateTerm (t : Nat) : Pres Stay (updateTerm t) := by
  intro s
  show Stay s (updateTerm t s).2
  by_cases h : s.term < t
  · rw [run_updateTerm_gt h]; exact Stay.raise h
  · rw [run_updateTerm_le (Nat.le_of_not_lt h)]; exact stayPo.refl s
theorem rl_voteSelf : Pres Stay voteSelf := by
  unfold voteSelf
  pres stayPo using rl_mod, rl_saveState
  all_goals rl
theorem rl_askForVotes : Pres Stay askForVotes := by
  unfold askForVotes
  pres stayPo using rl_mod, rl_becomeLeader, rl_peerIds, rl_askVote
  all_goals first | rl | exact ⟨by decide, by decide⟩
theorem rl_rearm : Pres Stay rearm := by
  unfold rearm
  pres stayPo using rl_restart
  all_goals rl
theorem rl_startTerm : Pres Stay startTerm := by
  intro s
  show Stay s (startTerm s).2
  unfold startTerm
  rw [bind_modify, bind_modify, bind_modify, bind_modify]
  exact Stay.raise (Nat.lt_succ_self s.term)
theorem rl_becomeCandidate : Pres Stay becomeCandidate := by
  unfold becomeCandidate requestVote
  pres stayPo using rl_startTerm, rl_voteSelf, rl_askForVotes, rl_rearm
theorem rl_requestPrevote : Pres Stay requestPrevote := by
  unfold requestPrevote
  pres stayPo using rl_becomeCandidate, rl_mod, rl_peerIds, rl_askVote
  all_goals first | rl | exact ⟨by decide, by decide⟩
theorem rl_leaveConfig : Pres Stay leaveConfig := by
  unfold leaveConfig
  pres stayPo using rl_mod, rl_emit
  all_goals rl
theorem rl_handleElectionTimeout : Pres Stay handleElectionTimeout := by
  unfold handleElectionTimeout
  pres stayPo using rl_mod, rl_leaveConfig, rl_die, rl_restart, rl_requestPrevote, rl_becomeCandidate
  all_goals rl
theorem rl_handleHbTimeout (r : PeerRef) : Pres Stay (handleHbTimeout r) := by
  unfold handleHbTimeout
  pres stayPo using rl_modPeer, rl_requestAppend
  all_goals rl

/-! ## Requests -/

theorem rl_skipSame : ∀ (es : List Entry) (i : Nat), Pres Stay (skipSame i es)
  | [], _ => pres_pure stayPo _
  | e :: es, i => by
    have ih := rl_skipSame es
    unfold skipSame
    pres stayPo using rl_termAt, ih
theorem rl_rollbackOld (i : Nat) : Pres Stay (rollbackOld i) := by
  unfold rollbackOld
  pres stayPo using rl_entryAt, rl_emit, rl_mod
  all_goals rl
theorem rl_noteNew (i : Nat) (e : Entry) : Pres Stay (noteNew i e) := by
  unfold noteNew
  pres stayPo using rl_emit, rl_mod
  all_goals rl
theorem rl_overwriteOld : ∀ (es : List Entry) (i : Nat), Pres Stay (overwriteOld i es)
  | [], _ => pres_pure stayPo _
  | e :: es, i => by
    have ih := rl_overwriteOld es
    unfold overwriteOld
    pres stayPo using rl_rollbackOld, rl_logWriteAt, rl_noteNew, ih
theorem rl_appendNew : ∀ (es : List Entry), Pres Stay (appendNew es)
  | [] => pres_pure stayPo _
  | e :: es => by
    have ih := rl_appendNew es
    unfold appendNew
    pres stayPo using rl_logAppend, rl_noteNew, ih
theorem rl_storeEntries (r : Req) : Pres Stay (storeEntries r) := by
  unfold storeEntries
  pres stayPo using rl_skipSame, rl_overwriteOld, rl_appendNew
  all_goals rl
theorem rl_hearLeader (r : Req) : Pres Stay (hearLeader r) := by
  unfold hearLeader
  refine pres_getBind fun s => ?_
  show At Stay s _
  split
  · split
    · next h =>
      show Stay s (becomeFollower s).2
      rw [run_becomeFollower]
      exact stay_stepDown (by rw [h]; decide)
    · exact rl_die _ s
    · exact rl_restart s
  · exact stayPo.refl s
theorem rl_logOkay (r : Req) : Pres Stay (logOkay r) := by
  unfold logOkay
  pres stayPo using rl_termForLog
  all_goals rl
theorem rl_handleAppendEntries (r : Req) : Pres Stay (handleAppendEntries r) := by
  unfold handleAppendEntries
  pres stayPo using rl_hearLeader, rl_logOkay, rl_storeEntries, rl_mod, rl_commit
  all_goals rl
theorem rl_handleVoteReq (r : Req) : Pres Stay (handleVoteReq r) := by
  unfold handleVoteReq
  pres stayPo using rl_mod, rl_saveState
  all_goals rl
theorem rl_handlePrevoteReq (r : Req) : Pres Stay (handlePrevoteReq r) := by
  unfold handlePrevoteReq
  pres stayPo using rl_mod
  all_goals rl
theorem rl_isLeader : Pres Stay isLeader := by
  unfold isLeader
  refine pres_getBind fun s => ?_
  by_cases h : s.role = .leader ∧ 0 < s.peers.length ∧ s.params.electionUpper * 2 < s.elapsed
  · simp only [if_pos h]
    have h1 : Stay s { s with elapsed := toI32 ((s.now : Int) - quorumResp s) } :=
      Stay.calm rfl rfl
    rw [bind_modify]
    generalize { s with elapsed := toI32 ((s.now : Int) - quorumResp s) } = s1 at h1 ⊢
    have h2 : Pres Stay (do
        let s ← get
        if s.params.electionUpper * 2 < s.elapsed then pure false
        else pure (decide (s.role = .leader)) : R Bool) := by
      pres stayPo using rl_emit
    exact stayPo.trans h1 (h2 s1)
  · simp only [if_neg h]
    exact stayPo.refl s
theorem rl_appendClient : ∀ (es : List Entry), Pres Stay (appendClient es)
  | [] => pres_pure stayPo _
  | e :: es => by
    have ih := rl_appendClient es
    unfold appendClient
    pres stayPo using rl_logAppend, rl_emit, ih
    all_goals rl
theorem rl_handleCliReq (r : Req) : Pres Stay (handleCliReq r) := by
  unfold handleCliReq
  pres stayPo using rl_isLeader, rl_appendClient, rl_requestAppendAll
  all_goals rl
theorem rl_addPeer (c : SrvCfg) : Pres Stay (addPeer c) := by
  unfold addPeer
  pres stayPo using rl_noJoin, rl_mod, rl_enableHb, rl_modPeer
  all_goals rl
theorem rl_removePeer (c : Config) (i : Int) : Pres Stay (removePeer c i) := by
  unfold removePeer
  pres stayPo using rl_emit, rl_die, rl_mod
  all_goals rl
theorem rl_reconfigure (c : Config) : Pres Stay (reconfigure c) := by
  unfold reconfigure
  pres stayPo using rl_addPeer, rl_removePeer, rl_mod
  all_goals rl
theorem rl_installSnapshot (q : Snap) : Pres Stay (installSnapshot q) := by
  unfold installSnapshot
  pres stayPo using rl_die, rl_logCompact, rl_stop, rl_emit, rl_mod, rl_reconfigure, rl_saveState, rl_restart
  all_goals rl
theorem rl_handleSnapshotSync (q : SnpSync) : Pres Stay (handleSnapshotSync q) := by
  unfold handleSnapshotSync
  pres stayPo using rl_emit, rl_die, rl_installSnapshot
  all_goals rl
theorem rl_hearSnapshotLeader (r : Req) : Pres Stay (hearSnapshotLeader r) := by
  unfold hearSnapshotLeader
  refine pres_getBind fun s => ?_
  show At Stay s _
  split
  · split
    · next h =>
      show Stay s (becomeFollower s).2
      rw [run_becomeFollower]
      exact stay_stepDown (by rw [h]; decide)
    · exact rl_die _ s
    · exact rl_restart s
  · exact stayPo.refl s
theorem rl_handleInstallSnapshot (r : Req) : Pres Stay (handleInstallSnapshot r) := by
  unfold handleInstallSnapshot
  pres stayPo using rl_hearSnapshotLeader, rl_handleSnapshotSync
theorem rl_handleRmSrv (r : Req) : Pres Stay (handleRmSrv r) := by
  unfold handleRmSrv
  pres stayPo using rl_emit
  all_goals rl
theorem rl_inviteSrv : Pres Stay inviteSrv := by
  unfold inviteSrv
  pres stayPo using rl_getPeer, rl_emit
  all_goals rl
theorem rl_handleAddSrv (r : Req) : Pres Stay (handleAddSrv r) := by
  unfold handleAddSrv
  have h0 : ∀ c : SrvCfg, Pres Stay (modify fun s : Srv =>
      { s with srvToJoin := some { cfg := c, hbInterval := s.params.hbInterval } } : R PUnit) := by
    intro c s
    exact Stay.calm rfl rfl
  pres stayPo using h0, rl_mod, rl_inviteSrv
  all_goals rl
theorem rl_handleLogSync (r : Req) : Pres Stay (handleLogSync r) := by
  unfold handleLogSync
  pres stayPo using rl_logApplyPack, rl_commit
  all_goals rl
theorem rl_handleLeave (r : Req) : Pres Stay (handleLeave r) := by
  unfold handleLeave
  pres stayPo using rl_mod
  all_goals rl
theorem rl_hearTerm (r : Req) : Pres Stay (hearTerm r) := by
  unfold hearTerm
  pres stayPo using rl_updateTerm, rl_mod
  all_goals rl

/-! ## Responses -/
theorem rl_acceptedResp (r : Resp) : Pres Stay (acceptedResp r) := by
  unfold acceptedResp
  pres stayPo using rl_modPeer, rl_commit, rl_getPeer
  all_goals rl
theorem rl_refusedResp (r : Resp) : Pres Stay (refusedResp r) := by
  unfold refusedResp
  pres stayPo using rl_modPeer
  all_goals rl
theorem rl_handleAppendResp (r : Resp) : Pres Stay (handleAppendResp r) := by
  unfold handleAppendResp
  pres stayPo using rl_acceptedResp, rl_refusedResp, rl_requestAppendTo
theorem rl_acceptedSnpResp (r : Resp) : Pres Stay (acceptedSnpResp r) := by
  unfold acceptedSnpResp
  pres stayPo using rl_modPeer, rl_getPeer
  all_goals rl
theorem rl_handleSnpResp (r : Resp) : Pres Stay (handleSnpResp r) := by
  unfold handleSnpResp
  pres stayPo using rl_acceptedSnpResp, rl_requestAppendTo
theorem rl_handleVotingResp (r : Resp) : Pres Stay (handleVotingResp r) := by
  unfold handleVotingResp
  pres stayPo using rl_mod, rl_becomeLeader
  all_goals rl
theorem rl_dispatchResp (r : Resp) : Pres Stay (dispatchResp r) := by
  unfold dispatchResp
  split
  · exact rl_handleVotingResp r
  all_goals pres stayPo using rl_handleAppendResp, rl_handleSnpResp, rl_die
theorem rl_handlePeerResp (r : Resp) : Pres Stay (handlePeerResp r) := by
  unfold handlePeerResp
  pres stayPo using rl_modPeer, rl_updateTerm, rl_dispatchResp
  all_goals rl
theorem rl_handlePrevoteResp (r : Resp) : Pres Stay (handlePrevoteResp r) := by
  unfold handlePrevoteResp
  pres stayPo using rl_mod, rl_becomeCandidate, rl_restart
  all_goals rl
theorem rl_addToConfig : Pres Stay addToConfig := by
  unfold addToConfig
  pres stayPo using rl_logAppend, rl_mod, rl_requestAppendAll
  all_goals rl
theorem rl_syncLogToNewSrv (i : Nat) : Pres Stay (syncLogToNewSrv i) := by
  unfold syncLogToNewSrv
  pres stayPo using rl_addToConfig, rl_createSync, rl_getPeer, rl_emit
  all_goals rl
theorem rl_rmSrvFromCluster (i : Int) : Pres Stay (rmSrvFromCluster i) := by
  unfold rmSrvFromCluster
  pres stayPo using rl_logAppend, rl_mod, rl_requestAppendAll
  all_goals rl
theorem rl_handleExtSnpResp (r : Resp) : Pres Stay (handleExtSnpResp r) := by
  unfold handleExtSnpResp
  pres stayPo using rl_die, rl_modPeer, rl_getPeer, rl_syncLogToNewSrv
  all_goals rl
theorem rl_handleExtResp (r : Resp) : Pres Stay (handleExtResp r) := by
  unfold handleExtResp
  refine pres_getBind fun s => ?_
  have h1 : Pres Stay (do
      modPeer .joining fun p => { p with nextIdx := r.nextIdx, matched := subU64 r.nextIdx 1 }
      syncLogToNewSrv r.nextIdx : R Unit) := by
    pres stayPo using rl_modPeer, rl_syncLogToNewSrv
    all_goals rl
  show At Stay s _
  split
  · split
    · exact stayPo.refl s
    · exact stayPo.trans (rl_modPeer .joining (resumeHb s.params) s) (h1 _)
  · split
    · exact stayPo.refl s
    · split
      · exact rl_syncLogToNewSrv _ s
      · exact stayPo.refl s
  · split
    · exact rl_rmSrvFromCluster _ s
    · exact stayPo.refl s
  · exact rl_handleExtSnpResp r s
  · exact rl_handlePrevoteResp r s
  · exact rl_die _ s
theorem rl_forceRemove (i : Int) : Pres Stay (forceRemove i) := by
  unfold forceRemove
  refine pres_bind stayPo (fun s => ?_) fun _ => rl_rmSrvFromCluster i
  show Stay s { s with peers := if s.peers.length = 1 then s.peers.filter fun p => p.id != i else s.peers }
  split
  · exact Stay.calm rfl rfl
  · exact stayPo.refl s
theorem rl_handleExtErr (r : Req) : Pres Stay (handleExtErr r) := by
  unfold handleExtErr
  refine pres_getBind fun s => ?_
  show At Stay s _
  split
  · split
    · exact stayPo.refl s
    · split
      · exact rl_forceRemove _ s
      · exact rl_modPeer _ (slowDownHb s.params) s
  · split
    · exact stayPo.refl s
    · split
      · exact Stay.calm rfl rfl
      · exact rl_modPeer _ (slowDownHb s.params) s
  · split
    · exact stayPo.refl s
    · split
      · exact Stay.calm rfl rfl
      · exact rl_modPeer _ (slowDownHb s.params) s
  · exact stayPo.refl s
theorem rl_retryReq (r : Req) : Pres Stay (retryReq r) := by
  unfold retryReq
  pres stayPo using rl_emit
theorem rl_rpcResult (p : PeerRef) (ty : MsgType) (ok : Bool) : Pres Stay (rpcResult p ty ok) := by
  unfold rpcResult
  pres stayPo using rl_modPeer

/-! ## Commit thread and application -/
theorem rl_commitConf (c : Config) : Pres Stay (commitConf c) := by
  unfold commitConf
  pres stayPo using rl_emit, rl_mod, rl_reconfigure
  all_goals rl
theorem rl_findConf (i : Nat) : ∀ (n : Nat) (c : Config), Pres Stay (findConf i n c)
  | 0, _ => pres_throw stayPo _
  | n + 1, c => by
    have ih := rl_findConf i n
    unfold findConf
    pres stayPo using rl_entryAt, ih
theorem rl_confForSnap (i : Nat) : Pres Stay (confForSnap i) := by
  unfold confForSnap
  pres stayPo using rl_findConf, rl_die
  all_goals rl
theorem rl_keepSnap (q : Snap) : Pres Stay (keepSnap q) := by
  unfold keepSnap
  pres stayPo using rl_mod, rl_emit
  all_goals rl
theorem rl_startSnapshot (i : Nat) : Pres Stay (startSnapshot i) := by
  unfold startSnapshot
  pres stayPo using rl_confForSnap, rl_termAt, rl_emit, rl_mod, rl_keepSnap
  all_goals rl
theorem rl_snapshotAndCompact (i : Nat) : Pres Stay (snapshotAndCompact i) := by
  unfold snapshotAndCompact
  pres stayPo using rl_mod, rl_startSnapshot
  all_goals rl
theorem rl_onSnapshotCompleted (q : Snap) (ok : Bool) : Pres Stay (onSnapshotCompleted q ok) := by
  unfold onSnapshotCompleted
  pres stayPo using rl_mod, rl_logCompact
  all_goals rl
theorem rl_applyEntry (i : Nat) (e : Entry) : Pres Stay (applyEntry i e) := by
  unfold applyEntry
  pres stayPo using rl_emit, rl_commitConf
  all_goals rl
theorem rl_applyOne : Pres Stay applyOne := by
  unfold applyOne
  pres stayPo using rl_mod, rl_entryToApply, rl_applyEntry, rl_snapshotAndCompact
  all_goals rl
theorem rl_replicateLog (d : Nat) : Pres Stay (replicateLog d) := by
  unfold replicateLog
  pres stayPo using rl_isLeader, rl_logAppend, rl_requestAppendAll
  all_goals rl

/-! ## Whole inputs -/
theorem rl_dispatch (r : Req) (hx : r.type ≠ .joinReq) : Pres Stay (dispatch r) := by
  have h1 : Pres Stay (handleExtended r) := by
    unfold handleExtended
    split
    · exact rl_handleAddSrv r
    · exact rl_handleRmSrv r
    · exact rl_handleLogSync r
    · next h => exact absurd h hx
    · exact rl_handleLeave r
    · exact rl_handleInstallSnapshot r
    · exact rl_handlePrevoteReq r
    · exact rl_die _
  unfold dispatch
  pres stayPo using rl_handleAppendEntries, rl_handleVoteReq, rl_handleCliReq, h1

/-- Every input but invitations to join. -/
theorem rl_run (x : Input) (hx : x.isJoin = false) : Pres Stay x.run := by
  cases x with
  | req r =>
    show Pres _ (processReq r >>= fun resp => emit (.reply resp))
    unfold processReq
    refine pres_bind stayPo (pres_bind stayPo (rl_hearTerm r) fun _ => rl_dispatch r fun h => ?_) fun q => rl_emit _
    have : (r.type == .joinReq) = false := hx
    rw [h] at this
    cases this
  | peerResp ty r => exact pres_bind stayPo (rl_rpcResult _ _ _) fun _ => rl_handlePeerResp r
  | extResp p ty r => exact pres_bind stayPo (rl_rpcResult _ _ _) fun _ => rl_handleExtResp r
  | peerErr r => exact rl_rpcResult _ _ _
  | extErr p r => exact pres_bind stayPo (rl_rpcResult _ _ _) fun _ => rl_handleExtErr r
  | retry r => exact rl_retryReq r
  | electionTimeout => exact rl_handleElectionTimeout
  | hbTimeout id => exact rl_handleHbTimeout _
  | apply => exact rl_applyOne
  | snapDone q ok =>
    exact pres_ite (pres_bind stayPo (rl_keepSnap q) fun _ => rl_onSnapshotCompleted q true) (rl_onSnapshotCompleted q false)
  | replicate d => exact pres_bind stayPo (rl_replicateLog d) fun _ => pres_pure stayPo _
  | tick n => exact rl_mod fun s => Stay.calm rfl rfl

end Cs.Raft
