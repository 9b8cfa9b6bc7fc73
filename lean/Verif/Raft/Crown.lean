import Verif.Raft.Role

/-!
# How a server becomes leader

A server that is leader after a handler was leader of the same term before, or announced during the handler that it took the
lead of this term.
-/

namespace Cs.Raft
open Cs

/-- A server that is leader afterwards was leader of this term, or has announced it. -/
def Crown (s s' : Srv) : Prop := ∃ es, s'.trace = s.trace ++ es ∧
  (s'.role = .leader → (s.role = .leader ∧ s'.term = s.term) ∨ .lead s'.term ∈ es)

theorem crownPo : PO Crown where
  refl s := ⟨[], (List.append_nil _).symm, fun h => .inl ⟨h, rfl⟩⟩
  trans := by
    rintro a b c ⟨es, h1, h2⟩ ⟨fs, h3, h4⟩
    refine ⟨es ++ fs, by rw [h3, h1, List.append_assoc], fun h => ?_⟩
    rcases h4 h with ⟨h5, h6⟩ | h5
    · rcases h2 h5 with ⟨h7, h8⟩ | h7
      · exact .inl ⟨h7, h6.trans h8⟩
      · exact .inr (List.mem_append_left _ (h6 ▸ h7))
    · exact .inr (List.mem_append_right _ h5)

theorem Crown.calm {s s' : Srv} (h1 : s'.role = s.role) (h2 : s'.term = s.term) (h3 : s'.trace = s.trace) : Crown s s' :=
  ⟨[], by rw [h3, List.append_nil], fun h => .inl ⟨h1 ▸ h, h2⟩⟩

theorem Crown.down {s s' : Srv} {es : List Eff} (h1 : s'.role ≠ .leader) (h2 : s'.trace = s.trace ++ es) : Crown s s' :=
  ⟨es, h2, fun h => absurd h h1⟩

theorem cwn_mod {f : Srv → Srv} (h : ∀ s, Crown s (f s)) : Pres Crown (modify f : R PUnit) := fun s => h s

theorem cwn_emit (e : Eff) : Pres Crown (emit e) := fun _ => ⟨[e], rfl, fun h => .inl ⟨h, rfl⟩⟩

theorem cwn_modPeer (r : PeerRef) (f : Peer → Peer) : Pres Crown (modPeer r f) := fun s => by
  cases r with
  | member id => exact Crown.calm rfl rfl rfl
  | joining => exact Crown.calm rfl rfl rfl

/-- The primitive updates. -/
macro "cwn" : tactic => `(tactic| first | rfl | exact Crown.calm rfl rfl rfl | (split <;> exact Crown.calm rfl rfl rfl))

theorem cwn_die {α : Type} (c : Int) : Pres Crown (die c : R α) := by
  unfold die
  pres crownPo using cwn_emit
  all_goals cwn
theorem cwn_saveState : Pres Crown saveState := fun _ => ⟨[_], rfl, fun h => .inl ⟨h, rfl⟩⟩
theorem cwn_getPeer (r : PeerRef) : Pres Crown (getPeer r) := by
  unfold getPeer
  pres crownPo using cwn_die
  all_goals cwn
theorem cwn_peerIds : Pres Crown peerIds := fun s => crownPo.refl s
theorem cwn_termAt (i : Nat) : Pres Crown (termAt i) := by
  unfold termAt
  pres crownPo using cwn_die
  all_goals cwn
theorem cwn_termForLog (i : Nat) : Pres Crown (termForLog i) := by
  unfold termForLog
  pres crownPo using cwn_die, cwn_termAt
  all_goals cwn
theorem cwn_chooseSnap (r : PeerRef) (i : Nat) : Pres Crown (chooseSnap r i) := by
  unfold chooseSnap
  pres crownPo using cwn_die, cwn_getPeer, cwn_modPeer
theorem cwn_createSyncReq (r : PeerRef) (i t c : Nat) : Pres Crown (createSyncSnapshotReq r i t c) := by
  unfold createSyncSnapshotReq
  pres crownPo using cwn_die, cwn_getPeer, cwn_chooseSnap
theorem cwn_createSync (i t c : Nat) : Pres Crown (createSyncSnapshotReq .joining i t c >>= fun q => emit (.send q)) :=
  pres_bind crownPo (cwn_createSyncReq _ i t c) fun _ => cwn_emit _
theorem cwn_entriesFrom (i : Nat) : Pres Crown (entriesFrom i) := by
  unfold entriesFrom
  pres crownPo using cwn_die
theorem cwn_appendReqFrom (r : PeerRef) (i : Nat) : Pres Crown (appendReqFrom r i) := by
  unfold appendReqFrom
  pres crownPo using cwn_termForLog, cwn_entriesFrom, cwn_getPeer
theorem cwn_createAppendReq (r : PeerRef) : Pres Crown (createAppendReq r) := by
  unfold createAppendReq
  pres crownPo using cwn_die, cwn_getPeer, cwn_modPeer, cwn_createSyncReq, cwn_appendReqFrom
theorem cwn_requestAppend (r : PeerRef) : Pres Crown (requestAppend r) := by
  unfold requestAppend
  pres crownPo using cwn_getPeer, cwn_modPeer, cwn_createAppendReq, cwn_emit
theorem cwn_commitNotify (id : Int) : Pres Crown (commitNotify id) := by
  unfold commitNotify
  pres crownPo using cwn_requestAppend, cwn_modPeer
  all_goals cwn
theorem cwn_requestAppendTo (id : Int) : Pres Crown (requestAppendTo id) := by
  unfold requestAppendTo
  pres crownPo using cwn_requestAppend
  all_goals cwn
theorem cwn_askVote (ty : MsgType) (id : Int) : Pres Crown (askVote ty id) := by
  unfold askVote
  pres crownPo using cwn_termForLog, cwn_emit
theorem cwn_entryAt (i : Nat) : Pres Crown (entryAt i) := by
  unfold entryAt
  pres crownPo using cwn_die
  all_goals cwn
theorem cwn_entryToApply (i : Nat) : Pres Crown (entryToApply i) := by
  unfold entryToApply
  pres crownPo using cwn_die
  all_goals cwn
theorem cwn_restart : Pres Crown restartElectionTimer := by
  unfold restartElectionTimer
  pres crownPo using cwn_mod
  all_goals cwn
theorem cwn_stop : Pres Crown stopElectionTimer := by
  unfold stopElectionTimer
  pres crownPo using cwn_mod
  all_goals cwn
theorem cwn_enableHb (r : PeerRef) : Pres Crown (enableHb r) := by
  unfold enableHb
  pres crownPo using cwn_modPeer
theorem cwn_leaderPeer (id : Int) : Pres Crown (leaderPeer id) := by
  unfold leaderPeer
  pres crownPo using cwn_modPeer, cwn_enableHb
theorem crown_stepDown {s : Srv} (_ : s.role ≠ .leader) : Crown s s.stepDown := Crown.down (by show Role.follower ≠ _; decide) rfl
theorem cwn_commit (n : Nat) : Pres Crown (commit n) := by
  unfold commit
  pres crownPo using cwn_mod, cwn_emit, cwn_peerIds, cwn_commitNotify
  all_goals cwn
theorem cwn_requestAppendAll : Pres Crown requestAppendAll := by
  unfold requestAppendAll
  pres crownPo using cwn_commit, cwn_peerIds, cwn_requestAppendTo
  all_goals cwn
theorem cwn_logAppend (e : Entry) : Pres Crown (logAppend e) := by
  unfold logAppend
  pres crownPo using cwn_mod, cwn_emit
  all_goals cwn
theorem cwn_logWriteAt (i : Nat) (e : Entry) : Pres Crown (logWriteAt i e) := by
  unfold logWriteAt
  pres crownPo using cwn_mod, cwn_emit
  all_goals cwn
theorem cwn_logApplyPack (i : Nat) (es : List Entry) : Pres Crown (logApplyPack i es) := by
  unfold logApplyPack
  pres crownPo using cwn_mod, cwn_emit
  all_goals cwn
theorem cwn_logCompact (i : Nat) : Pres Crown (logCompact i) := by
  unfold logCompact
  pres crownPo using cwn_mod, cwn_emit
  all_goals cwn
theorem cwn_initialConf : Pres Crown initialConf := by
  unfold initialConf
  pres crownPo using cwn_mod, cwn_logAppend
  all_goals cwn
theorem cwn_noJoin : Pres Crown (modify fun s : Srv => { s with srvToJoin := none } : R PUnit) :=
  fun _ => Crown.calm rfl rfl rfl
theorem cwn_becomeLeader : Pres Crown becomeLeader := by
  intro s
  show Crown s (becomeLeader s).2
  unfold becomeLeader
  have h0 : stopElectionTimer s = (.ok ⟨⟩, { s with armed := false }) := rfl
  rw [run_bind_ok h0, bind_get, bind_modify, bind_emit]
  refine crownPo.trans (b := { s with armed := false, role := .leader, trace := s.trace ++ [.lead s.term] })
    ⟨[.lead s.term], rfl, fun _ => .inr (List.mem_singleton.2 rfl)⟩ ?_
  have h1 : Pres Crown (do
      modify fun s : Srv => { s with leader := s.id }
      modify fun s : Srv => { s with srvToJoin := none }
      let ids ← peerIds
      forEach leaderPeer ids
      initialConf
      emit (.event .becomeLeader)
      requestAppendAll : R Unit) := by
    pres crownPo using cwn_noJoin, cwn_mod, cwn_emit, cwn_peerIds, cwn_leaderPeer, cwn_initialConf, cwn_requestAppendAll
    all_goals cwn
  exact h1 _
theorem cwn_updateTerm (t : Nat) : Pres Crown (updateTerm t) := by
  intro s
  show Crown s (updateTerm t s).2
  by_cases h : s.term < t
  · rw [run_updateTerm_gt h]; exact Crown.down (es := [.saveState t (-1), .event .becomeFollower]) (by show Role.follower ≠ _; decide) (List.append_assoc ..)
  · rw [run_updateTerm_le (Nat.le_of_not_lt h)]; exact crownPo.refl s
theorem cwn_voteSelf : Pres Crown voteSelf := by
  unfold voteSelf
  pres crownPo using cwn_mod, cwn_saveState
  all_goals cwn
theorem cwn_askForVotes : Pres Crown askForVotes := by
  unfold askForVotes
  pres crownPo using cwn_mod, cwn_becomeLeader, cwn_peerIds, cwn_askVote
  all_goals first | cwn | exact Crown.calm rfl rfl rfl
theorem cwn_rearm : Pres Crown rearm := by
  unfold rearm
  pres crownPo using cwn_restart
  all_goals cwn
theorem cwn_startTerm : Pres Crown startTerm := by
  intro s
  show Crown s (startTerm s).2
  unfold startTerm
  rw [bind_modify, bind_modify, bind_modify, bind_modify]
  exact Crown.down (by show Role.candidate ≠ _; decide) rfl
theorem cwn_becomeCandidate : Pres Crown becomeCandidate := by
  unfold becomeCandidate requestVote
  pres crownPo using cwn_startTerm, cwn_voteSelf, cwn_askForVotes, cwn_rearm
theorem cwn_requestPrevote : Pres Crown requestPrevote := by
  unfold requestPrevote
  pres crownPo using cwn_becomeCandidate, cwn_mod, cwn_peerIds, cwn_askVote
  all_goals first | cwn | exact Crown.calm rfl rfl rfl
theorem cwn_leaveConfig : Pres Crown leaveConfig := by
  unfold leaveConfig
  pres crownPo using cwn_mod, cwn_emit
  all_goals cwn
theorem cwn_handleElectionTimeout : Pres Crown handleElectionTimeout := by
  unfold handleElectionTimeout
  pres crownPo using cwn_mod, cwn_leaveConfig, cwn_die, cwn_restart, cwn_requestPrevote, cwn_becomeCandidate
  all_goals cwn
theorem cwn_handleHbTimeout (r : PeerRef) : Pres Crown (handleHbTimeout r) := by
  unfold handleHbTimeout
  pres crownPo using cwn_modPeer, cwn_requestAppend
  all_goals cwn

/-! ## Requests -/

theorem cwn_skipSame : ∀ (es : List Entry) (i : Nat), Pres Crown (skipSame i es)
  | [], _ => pres_pure crownPo _
  | e :: es, i => by
    have ih := cwn_skipSame es
    unfold skipSame
    pres crownPo using cwn_termAt, ih
theorem cwn_rollbackOld (i : Nat) : Pres Crown (rollbackOld i) := by
  unfold rollbackOld
  pres crownPo using cwn_entryAt, cwn_emit, cwn_mod
  all_goals cwn
theorem cwn_noteNew (i : Nat) (e : Entry) : Pres Crown (noteNew i e) := by
  unfold noteNew
  pres crownPo using cwn_emit, cwn_mod
  all_goals cwn
theorem cwn_overwriteOld : ∀ (es : List Entry) (i : Nat), Pres Crown (overwriteOld i es)
  | [], _ => pres_pure crownPo _
  | e :: es, i => by
    have ih := cwn_overwriteOld es
    unfold overwriteOld
    pres crownPo using cwn_rollbackOld, cwn_logWriteAt, cwn_noteNew, ih
theorem cwn_appendNew : ∀ (es : List Entry), Pres Crown (appendNew es)
  | [] => pres_pure crownPo _
  | e :: es => by
    have ih := cwn_appendNew es
    unfold appendNew
    pres crownPo using cwn_logAppend, cwn_noteNew, ih
theorem cwn_storeEntries (r : Req) : Pres Crown (storeEntries r) := by
  unfold storeEntries
  pres crownPo using cwn_skipSame, cwn_overwriteOld, cwn_appendNew
  all_goals cwn
theorem cwn_hearLeader (r : Req) : Pres Crown (hearLeader r) := by
  unfold hearLeader
  refine pres_getBind fun s => ?_
  show At Crown s _
  split
  · split
    · next h =>
      show Crown s (becomeFollower s).2
      rw [run_becomeFollower]
      exact crown_stepDown (by rw [h]; decide)
    · exact cwn_die _ s
    · exact cwn_restart s
  · exact crownPo.refl s
theorem cwn_logOkay (r : Req) : Pres Crown (logOkay r) := by
  unfold logOkay
  pres crownPo using cwn_termForLog
  all_goals cwn
theorem cwn_handleAppendEntries (r : Req) : Pres Crown (handleAppendEntries r) := by
  unfold handleAppendEntries
  pres crownPo using cwn_hearLeader, cwn_logOkay, cwn_storeEntries, cwn_mod, cwn_commit
  all_goals cwn
theorem cwn_handleVoteReq (r : Req) : Pres Crown (handleVoteReq r) := by
  unfold handleVoteReq
  pres crownPo using cwn_mod, cwn_saveState
  all_goals cwn
theorem cwn_handlePrevoteReq (r : Req) : Pres Crown (handlePrevoteReq r) := by
  unfold handlePrevoteReq
  pres crownPo using cwn_mod
  all_goals cwn
theorem cwn_isLeader : Pres Crown isLeader := by
  unfold isLeader
  refine pres_getBind fun s => ?_
  by_cases h : s.role = .leader ∧ 0 < s.peers.length ∧ s.params.electionUpper * 2 < s.elapsed
  · simp only [if_pos h]
    have h1 : Crown s { s with elapsed := toI32 ((s.now : Int) - quorumResp s) } :=
      Crown.calm rfl rfl rfl
    rw [bind_modify]
    generalize { s with elapsed := toI32 ((s.now : Int) - quorumResp s) } = s1 at h1 ⊢
    have h2 : Pres Crown (do
        let s ← get
        if s.params.electionUpper * 2 < s.elapsed then pure false
        else pure (decide (s.role = .leader)) : R Bool) := by
      pres crownPo using cwn_emit
    exact crownPo.trans h1 (h2 s1)
  · simp only [if_neg h]
    exact crownPo.refl s
theorem cwn_appendClient : ∀ (es : List Entry), Pres Crown (appendClient es)
  | [] => pres_pure crownPo _
  | e :: es => by
    have ih := cwn_appendClient es
    unfold appendClient
    pres crownPo using cwn_logAppend, cwn_emit, ih
    all_goals cwn
theorem cwn_handleCliReq (r : Req) : Pres Crown (handleCliReq r) := by
  unfold handleCliReq
  pres crownPo using cwn_isLeader, cwn_appendClient, cwn_requestAppendAll
  all_goals cwn
theorem cwn_addPeer (c : SrvCfg) : Pres Crown (addPeer c) := by
  unfold addPeer
  pres crownPo using cwn_noJoin, cwn_mod, cwn_enableHb, cwn_modPeer
  all_goals cwn
theorem cwn_removePeer (c : Config) (i : Int) : Pres Crown (removePeer c i) := by
  unfold removePeer
  pres crownPo using cwn_emit, cwn_die, cwn_mod
  all_goals cwn
theorem cwn_reconfigure (c : Config) : Pres Crown (reconfigure c) := by
  unfold reconfigure
  pres crownPo using cwn_addPeer, cwn_removePeer, cwn_mod
  all_goals cwn
theorem cwn_installSnapshot (q : Snap) : Pres Crown (installSnapshot q) := by
  unfold installSnapshot
  pres crownPo using cwn_die, cwn_logCompact, cwn_stop, cwn_emit, cwn_mod, cwn_reconfigure, cwn_saveState, cwn_restart
  all_goals cwn
theorem cwn_handleSnapshotSync (q : SnpSync) : Pres Crown (handleSnapshotSync q) := by
  unfold handleSnapshotSync
  pres crownPo using cwn_emit, cwn_die, cwn_installSnapshot
  all_goals cwn
theorem cwn_hearSnapshotLeader (r : Req) : Pres Crown (hearSnapshotLeader r) := by
  unfold hearSnapshotLeader
  refine pres_getBind fun s => ?_
  show At Crown s _
  split
  · split
    · next h =>
      show Crown s (becomeFollower s).2
      rw [run_becomeFollower]
      exact crown_stepDown (by rw [h]; decide)
    · exact cwn_die _ s
    · exact cwn_restart s
  · exact crownPo.refl s
theorem cwn_handleInstallSnapshot (r : Req) : Pres Crown (handleInstallSnapshot r) := by
  unfold handleInstallSnapshot
  pres crownPo using cwn_hearSnapshotLeader, cwn_handleSnapshotSync
theorem cwn_handleRmSrv (r : Req) : Pres Crown (handleRmSrv r) := by
  unfold handleRmSrv
  pres crownPo using cwn_emit
  all_goals cwn
theorem cwn_inviteSrv : Pres Crown inviteSrv := by
  unfold inviteSrv
  pres crownPo using cwn_getPeer, cwn_emit
  all_goals cwn
theorem cwn_handleAddSrv (r : Req) : Pres Crown (handleAddSrv r) := by
  unfold handleAddSrv
  have h0 : ∀ c : SrvCfg, Pres Crown (modify fun s : Srv =>
      { s with srvToJoin := some { cfg := c, hbInterval := s.params.hbInterval } } : R PUnit) := by
    intro c s
    exact Crown.calm rfl rfl rfl
  pres crownPo using h0, cwn_mod, cwn_inviteSrv
  all_goals cwn
theorem cwn_handleLogSync (r : Req) : Pres Crown (handleLogSync r) := by
  unfold handleLogSync
  pres crownPo using cwn_logApplyPack, cwn_commit
  all_goals cwn
theorem cwn_handleLeave (r : Req) : Pres Crown (handleLeave r) := by
  unfold handleLeave
  pres crownPo using cwn_mod
  all_goals cwn
theorem cwn_hearTerm (r : Req) : Pres Crown (hearTerm r) := by
  unfold hearTerm
  pres crownPo using cwn_updateTerm, cwn_mod
  all_goals cwn

/-! ## Responses -/
theorem cwn_acceptedResp (r : Resp) : Pres Crown (acceptedResp r) := by
  unfold acceptedResp
  pres crownPo using cwn_modPeer, cwn_commit, cwn_getPeer
  all_goals cwn
theorem cwn_refusedResp (r : Resp) : Pres Crown (refusedResp r) := by
  unfold refusedResp
  pres crownPo using cwn_modPeer
  all_goals cwn
theorem cwn_handleAppendResp (r : Resp) : Pres Crown (handleAppendResp r) := by
  unfold handleAppendResp
  pres crownPo using cwn_acceptedResp, cwn_refusedResp, cwn_requestAppendTo
theorem cwn_acceptedSnpResp (r : Resp) : Pres Crown (acceptedSnpResp r) := by
  unfold acceptedSnpResp
  pres crownPo using cwn_modPeer, cwn_getPeer
  all_goals cwn
theorem cwn_handleSnpResp (r : Resp) : Pres Crown (handleSnpResp r) := by
  unfold handleSnpResp
  pres crownPo using cwn_acceptedSnpResp, cwn_requestAppendTo
theorem cwn_handleVotingResp (r : Resp) : Pres Crown (handleVotingResp r) := by
  unfold handleVotingResp
  pres crownPo using cwn_mod, cwn_becomeLeader
  all_goals cwn
theorem cwn_dispatchResp (r : Resp) : Pres Crown (dispatchResp r) := by
  unfold dispatchResp
  split
  · exact cwn_handleVotingResp r
  all_goals pres crownPo using cwn_handleAppendResp, cwn_handleSnpResp, cwn_die
theorem cwn_handlePeerResp (r : Resp) : Pres Crown (handlePeerResp r) := by
  unfold handlePeerResp
  pres crownPo using cwn_modPeer, cwn_updateTerm, cwn_dispatchResp
  all_goals cwn
theorem cwn_handlePrevoteResp (r : Resp) : Pres Crown (handlePrevoteResp r) := by
  unfold handlePrevoteResp
  pres crownPo using cwn_mod, cwn_becomeCandidate, cwn_restart
  all_goals cwn
theorem cwn_addToConfig : Pres Crown addToConfig := by
  unfold addToConfig
  pres crownPo using cwn_logAppend, cwn_mod, cwn_requestAppendAll
  all_goals cwn
theorem cwn_syncLogToNewSrv (i : Nat) : Pres Crown (syncLogToNewSrv i) := by
  unfold syncLogToNewSrv
  pres crownPo using cwn_addToConfig, cwn_createSync, cwn_getPeer, cwn_emit
  all_goals cwn
theorem cwn_rmSrvFromCluster (i : Int) : Pres Crown (rmSrvFromCluster i) := by
  unfold rmSrvFromCluster
  pres crownPo using cwn_logAppend, cwn_mod, cwn_requestAppendAll
  all_goals cwn
theorem cwn_handleExtSnpResp (r : Resp) : Pres Crown (handleExtSnpResp r) := by
  unfold handleExtSnpResp
  pres crownPo using cwn_die, cwn_modPeer, cwn_getPeer, cwn_syncLogToNewSrv
  all_goals cwn
theorem cwn_handleExtResp (r : Resp) : Pres Crown (handleExtResp r) := by
  unfold handleExtResp
  refine pres_getBind fun s => ?_
  have h1 : Pres Crown (do
      modPeer .joining fun p => { p with nextIdx := r.nextIdx, matched := subU64 r.nextIdx 1 }
      syncLogToNewSrv r.nextIdx : R Unit) := by
    pres crownPo using cwn_modPeer, cwn_syncLogToNewSrv
    all_goals cwn
  show At Crown s _
  split
  · split
    · exact crownPo.refl s
    · exact crownPo.trans (cwn_modPeer .joining (resumeHb s.params) s) (h1 _)
  · split
    · exact crownPo.refl s
    · split
      · exact cwn_syncLogToNewSrv _ s
      · exact crownPo.refl s
  · split
    · exact cwn_rmSrvFromCluster _ s
    · exact crownPo.refl s
  · exact cwn_handleExtSnpResp r s
  · exact cwn_handlePrevoteResp r s
  · exact cwn_die _ s
theorem cwn_forceRemove (i : Int) : Pres Crown (forceRemove i) := by
  unfold forceRemove
  refine pres_bind crownPo (fun s => ?_) fun _ => cwn_rmSrvFromCluster i
  show Crown s { s with peers := if s.peers.length = 1 then s.peers.filter fun p => p.id != i else s.peers }
  split
  · exact Crown.calm rfl rfl rfl
  · exact crownPo.refl s
theorem cwn_handleExtErr (r : Req) : Pres Crown (handleExtErr r) := by
  unfold handleExtErr
  refine pres_getBind fun s => ?_
  show At Crown s _
  split
  · split
    · exact crownPo.refl s
    · split
      · exact cwn_forceRemove _ s
      · exact cwn_modPeer _ (slowDownHb s.params) s
  · split
    · exact crownPo.refl s
    · split
      · exact Crown.calm rfl rfl rfl
      · exact cwn_modPeer _ (slowDownHb s.params) s
  · split
    · exact crownPo.refl s
    · split
      · exact Crown.calm rfl rfl rfl
      · exact cwn_modPeer _ (slowDownHb s.params) s
  · exact crownPo.refl s
theorem cwn_retryReq (r : Req) : Pres Crown (retryReq r) := by
  unfold retryReq
  pres crownPo using cwn_emit
theorem cwn_rpcResult (p : PeerRef) (ty : MsgType) (ok : Bool) : Pres Crown (rpcResult p ty ok) := by
  unfold rpcResult
  pres crownPo using cwn_modPeer

/-! ## Commit thread and application -/
theorem cwn_commitConf (c : Config) : Pres Crown (commitConf c) := by
  unfold commitConf
  pres crownPo using cwn_emit, cwn_mod, cwn_reconfigure
  all_goals cwn
theorem cwn_findConf (i : Nat) : ∀ (n : Nat) (c : Config), Pres Crown (findConf i n c)
  | 0, _ => pres_throw crownPo _
  | n + 1, c => by
    have ih := cwn_findConf i n
    unfold findConf
    pres crownPo using cwn_entryAt, ih
theorem cwn_confForSnap (i : Nat) : Pres Crown (confForSnap i) := by
  unfold confForSnap
  pres crownPo using cwn_findConf, cwn_die
  all_goals cwn
theorem cwn_keepSnap (q : Snap) : Pres Crown (keepSnap q) := by
  unfold keepSnap
  pres crownPo using cwn_mod, cwn_emit
  all_goals cwn
theorem cwn_startSnapshot (i : Nat) : Pres Crown (startSnapshot i) := by
  unfold startSnapshot
  pres crownPo using cwn_confForSnap, cwn_termAt, cwn_emit, cwn_mod, cwn_keepSnap
  all_goals cwn
theorem cwn_snapshotAndCompact (i : Nat) : Pres Crown (snapshotAndCompact i) := by
  unfold snapshotAndCompact
  pres crownPo using cwn_mod, cwn_startSnapshot
  all_goals cwn
theorem cwn_onSnapshotCompleted (q : Snap) (ok : Bool) : Pres Crown (onSnapshotCompleted q ok) := by
  unfold onSnapshotCompleted
  pres crownPo using cwn_mod, cwn_logCompact
  all_goals cwn
theorem cwn_applyEntry (i : Nat) (e : Entry) : Pres Crown (applyEntry i e) := by
  unfold applyEntry
  pres crownPo using cwn_emit, cwn_commitConf
  all_goals cwn
theorem cwn_applyOne : Pres Crown applyOne := by
  unfold applyOne
  pres crownPo using cwn_mod, cwn_entryToApply, cwn_applyEntry, cwn_snapshotAndCompact
  all_goals cwn
theorem cwn_replicateLog (d : Nat) : Pres Crown (replicateLog d) := by
  unfold replicateLog
  pres crownPo using cwn_isLeader, cwn_logAppend, cwn_requestAppendAll
  all_goals cwn

/-! ## Whole inputs -/
theorem cwn_dispatch (r : Req) (hx : r.type ≠ .joinReq) : Pres Crown (dispatch r) := by
  have h1 : Pres Crown (handleExtended r) := by
    unfold handleExtended
    split
    · exact cwn_handleAddSrv r
    · exact cwn_handleRmSrv r
    · exact cwn_handleLogSync r
    · next h => exact absurd h hx
    · exact cwn_handleLeave r
    · exact cwn_handleInstallSnapshot r
    · exact cwn_handlePrevoteReq r
    · exact cwn_die _
  unfold dispatch
  pres crownPo using cwn_handleAppendEntries, cwn_handleVoteReq, cwn_handleCliReq, h1

/-- Every input but invitations to join. -/
theorem cwn_run (x : Input) (hx : x.isJoin = false) : Pres Crown x.run := by
  cases x with
  | req r =>
    show Pres _ (processReq r >>= fun resp => emit (.reply resp))
    unfold processReq
    refine pres_bind crownPo (pres_bind crownPo (cwn_hearTerm r) fun _ => cwn_dispatch r fun h => ?_) fun q => cwn_emit _
    have : (r.type == .joinReq) = false := hx
    rw [h] at this
    cases this
  | peerResp ty r => exact pres_bind crownPo (cwn_rpcResult _ _ _) fun _ => cwn_handlePeerResp r
  | extResp p ty r => exact pres_bind crownPo (cwn_rpcResult _ _ _) fun _ => cwn_handleExtResp r
  | peerErr r => exact cwn_rpcResult _ _ _
  | extErr p r => exact pres_bind crownPo (cwn_rpcResult _ _ _) fun _ => cwn_handleExtErr r
  | retry r => exact cwn_retryReq r
  | electionTimeout => exact cwn_handleElectionTimeout
  | hbTimeout id => exact cwn_handleHbTimeout _
  | apply => exact cwn_applyOne
  | snapDone q ok =>
    exact pres_ite (pres_bind crownPo (cwn_keepSnap q) fun _ => cwn_onSnapshotCompleted q true) (cwn_onSnapshotCompleted q false)
  | replicate d => exact pres_bind crownPo (cwn_replicateLog d) fun _ => pres_pure crownPo _
  | tick n => exact cwn_mod fun s => Crown.calm rfl rfl rfl

end Cs.Raft
