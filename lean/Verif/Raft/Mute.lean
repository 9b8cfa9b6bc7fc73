import Verif.Raft.Role

/-!
# Who answers

No handler answers a request by itself: `processReq` returns the answer, and it is sent after the handler has finished
(asio_service.cxx 257-280).
-/

namespace Cs.Raft
open Cs

/-- No answer is sent. -/
def Silent (s s' : Srv) : Prop := ∃ es, s'.trace = s.trace ++ es ∧ ∀ a, Eff.reply a ∉ es

theorem silentPo : PO Silent where
  refl s := ⟨[], (List.append_nil _).symm, fun _ h => by cases h⟩
  trans := by
    rintro a b c ⟨es, h1, h2⟩ ⟨fs, h3, h4⟩
    refine ⟨es ++ fs, by rw [h3, h1, List.append_assoc], fun r h => ?_⟩
    rcases List.mem_append.1 h with h | h
    · exact h2 r h
    · exact h4 r h

theorem Silent.calm {s s' : Srv} (h : s'.trace = s.trace) : Silent s s' := ⟨[], by rw [h, List.append_nil], fun _ h => by cases h⟩

/-- Effects that are not answers. -/
def Eff.mute : Eff → Bool
  | .reply _ => false
  | _ => true

theorem Silent.fx {s s' : Srv} {es : List Eff} (h : s'.trace = s.trace ++ es) (he : es.all Eff.mute = true) : Silent s s' :=
  ⟨es, h, fun a ha => by have := List.all_eq_true.1 he _ ha; cases this⟩

theorem sil_mod {f : Srv → Srv} (h : ∀ s, Silent s (f s)) : Pres Silent (modify f : R PUnit) := fun s => h s

theorem sil_emit {e : Eff} (h : e.mute = true) : Pres Silent (emit e) := fun _ => Silent.fx (es := [e]) rfl (by rw [List.all_cons, h]; rfl)

theorem sil_modPeer (r : PeerRef) (f : Peer → Peer) : Pres Silent (modPeer r f) := fun s => by
  cases r with
  | member id => exact Silent.calm rfl
  | joining => exact Silent.calm rfl

/-- The primitive updates. -/
macro "mu" : tactic => `(tactic| first | rfl | exact Silent.calm rfl | (split <;> exact Silent.calm rfl))

theorem sil_die {α : Type} (c : Int) : Pres Silent (die c : R α) := by
  unfold die
  pres silentPo using sil_emit
  all_goals mu
theorem sil_saveState : Pres Silent saveState := fun _ => Silent.fx (es := [.saveState _ _]) rfl rfl
theorem sil_getPeer (r : PeerRef) : Pres Silent (getPeer r) := by
  unfold getPeer
  pres silentPo using sil_die
  all_goals mu
theorem sil_peerIds : Pres Silent peerIds := fun s => silentPo.refl s
theorem sil_termAt (i : Nat) : Pres Silent (termAt i) := by
  unfold termAt
  pres silentPo using sil_die
  all_goals mu
theorem sil_termForLog (i : Nat) : Pres Silent (termForLog i) := by
  unfold termForLog
  pres silentPo using sil_die, sil_termAt
  all_goals mu
theorem sil_chooseSnap (r : PeerRef) (i : Nat) : Pres Silent (chooseSnap r i) := by
  unfold chooseSnap
  pres silentPo using sil_die, sil_getPeer, sil_modPeer
theorem sil_createSyncReq (r : PeerRef) (i t c : Nat) : Pres Silent (createSyncSnapshotReq r i t c) := by
  unfold createSyncSnapshotReq
  pres silentPo using sil_die, sil_getPeer, sil_chooseSnap
theorem sil_createSync (i t c : Nat) : Pres Silent (createSyncSnapshotReq .joining i t c >>= fun q => emit (.send q)) :=
  pres_bind silentPo (sil_createSyncReq _ i t c) fun _ => sil_emit rfl
theorem sil_entriesFrom (i : Nat) : Pres Silent (entriesFrom i) := by
  unfold entriesFrom
  pres silentPo using sil_die
theorem sil_appendReqFrom (r : PeerRef) (i : Nat) : Pres Silent (appendReqFrom r i) := by
  unfold appendReqFrom
  pres silentPo using sil_termForLog, sil_entriesFrom, sil_getPeer
theorem sil_createAppendReq (r : PeerRef) : Pres Silent (createAppendReq r) := by
  unfold createAppendReq
  pres silentPo using sil_die, sil_getPeer, sil_modPeer, sil_createSyncReq, sil_appendReqFrom
theorem sil_requestAppend (r : PeerRef) : Pres Silent (requestAppend r) := by
  unfold requestAppend
  pres silentPo using sil_getPeer, sil_modPeer, sil_createAppendReq, sil_emit
  all_goals mu
theorem sil_commitNotify (id : Int) : Pres Silent (commitNotify id) := by
  unfold commitNotify
  pres silentPo using sil_requestAppend, sil_modPeer
  all_goals mu
theorem sil_requestAppendTo (id : Int) : Pres Silent (requestAppendTo id) := by
  unfold requestAppendTo
  pres silentPo using sil_requestAppend
  all_goals mu
theorem sil_askVote (ty : MsgType) (id : Int) : Pres Silent (askVote ty id) := by
  unfold askVote
  pres silentPo using sil_termForLog, sil_emit
  all_goals mu
theorem sil_entryAt (i : Nat) : Pres Silent (entryAt i) := by
  unfold entryAt
  pres silentPo using sil_die
  all_goals mu
theorem sil_entryToApply (i : Nat) : Pres Silent (entryToApply i) := by
  unfold entryToApply
  pres silentPo using sil_die
  all_goals mu
theorem sil_restart : Pres Silent restartElectionTimer := by
  unfold restartElectionTimer
  pres silentPo using sil_mod
  all_goals mu
theorem sil_stop : Pres Silent stopElectionTimer := by
  unfold stopElectionTimer
  pres silentPo using sil_mod
  all_goals mu
theorem sil_enableHb (r : PeerRef) : Pres Silent (enableHb r) := by
  unfold enableHb
  pres silentPo using sil_modPeer
theorem sil_leaderPeer (id : Int) : Pres Silent (leaderPeer id) := by
  unfold leaderPeer
  pres silentPo using sil_modPeer, sil_enableHb
theorem silent_stepDown (s : Srv) : Silent s s.stepDown := Silent.fx (es := [.event .becomeFollower]) rfl rfl
theorem sil_commit (n : Nat) : Pres Silent (commit n) := by
  unfold commit
  pres silentPo using sil_mod, sil_emit, sil_peerIds, sil_commitNotify
  all_goals mu
theorem sil_requestAppendAll : Pres Silent requestAppendAll := by
  unfold requestAppendAll
  pres silentPo using sil_commit, sil_peerIds, sil_requestAppendTo
  all_goals mu
theorem sil_logAppend (e : Entry) : Pres Silent (logAppend e) := by
  unfold logAppend
  pres silentPo using sil_mod, sil_emit
  all_goals mu
theorem sil_logWriteAt (i : Nat) (e : Entry) : Pres Silent (logWriteAt i e) := by
  unfold logWriteAt
  pres silentPo using sil_mod, sil_emit
  all_goals mu
theorem sil_logApplyPack (i : Nat) (es : List Entry) : Pres Silent (logApplyPack i es) := by
  unfold logApplyPack
  pres silentPo using sil_mod, sil_emit
  all_goals mu
theorem sil_logCompact (i : Nat) : Pres Silent (logCompact i) := by
  unfold logCompact
  pres silentPo using sil_mod, sil_emit
  all_goals mu
theorem sil_initialConf : Pres Silent initialConf := by
  unfold initialConf
  pres silentPo using sil_mod, sil_logAppend
  all_goals mu
theorem sil_noJoin : Pres Silent (modify fun s : Srv => { s with srvToJoin := none } : R PUnit) :=
  fun _ => Silent.calm rfl
theorem sil_becomeLeader : Pres Silent becomeLeader := by
  intro s
  show Silent s (becomeLeader s).2
  unfold becomeLeader
  have h0 : stopElectionTimer s = (.ok ⟨⟩, { s with armed := false }) := rfl
  rw [run_bind_ok h0, bind_get, bind_modify, bind_emit]
  refine silentPo.trans (b := { s with armed := false, role := .leader, trace := s.trace ++ [.lead s.term] })
    (Silent.fx (es := [.lead s.term]) rfl rfl) ?_
  have h1 : Pres Silent (do
      modify fun s : Srv => { s with leader := s.id }
      modify fun s : Srv => { s with srvToJoin := none }
      let ids ← peerIds
      forEach leaderPeer ids
      initialConf
      emit (.event .becomeLeader)
      requestAppendAll : R Unit) := by
    pres silentPo using sil_noJoin, sil_mod, sil_emit, sil_peerIds, sil_leaderPeer, sil_initialConf, sil_requestAppendAll
    all_goals mu
  exact h1 _
theorem sil_updateTerm (t : Nat) : Pres Silent (updateTerm t) := by
  intro s
  show Silent s (updateTerm t s).2
  by_cases h : s.term < t
  · rw [run_updateTerm_gt h]; exact Silent.fx (es := [.saveState t (-1), .event .becomeFollower]) (List.append_assoc ..) rfl
  · rw [run_updateTerm_le (Nat.le_of_not_lt h)]; exact silentPo.refl s
theorem sil_voteSelf : Pres Silent voteSelf := by
  unfold voteSelf
  pres silentPo using sil_mod, sil_saveState
  all_goals mu
theorem sil_askForVotes : Pres Silent askForVotes := by
  unfold askForVotes
  pres silentPo using sil_mod, sil_becomeLeader, sil_peerIds, sil_askVote
  all_goals first | mu | exact Silent.calm rfl
theorem sil_rearm : Pres Silent rearm := by
  unfold rearm
  pres silentPo using sil_restart
  all_goals mu
theorem sil_startTerm : Pres Silent startTerm := by
  intro s
  show Silent s (startTerm s).2
  unfold startTerm
  rw [bind_modify, bind_modify, bind_modify, bind_modify]
  exact Silent.fx (es := [.saveState (s.term + 1) (-1)]) rfl rfl
theorem sil_becomeCandidate : Pres Silent becomeCandidate := by
  unfold becomeCandidate requestVote
  pres silentPo using sil_startTerm, sil_voteSelf, sil_askForVotes, sil_rearm
theorem sil_requestPrevote : Pres Silent requestPrevote := by
  unfold requestPrevote
  pres silentPo using sil_becomeCandidate, sil_mod, sil_peerIds, sil_askVote
  all_goals first | mu | exact Silent.calm rfl
theorem sil_leaveConfig : Pres Silent leaveConfig := by
  unfold leaveConfig
  pres silentPo using sil_mod, sil_emit
  all_goals mu
theorem sil_handleElectionTimeout : Pres Silent handleElectionTimeout := by
  unfold handleElectionTimeout
  pres silentPo using sil_mod, sil_leaveConfig, sil_die, sil_restart, sil_requestPrevote, sil_becomeCandidate
  all_goals mu
theorem sil_handleHbTimeout (r : PeerRef) : Pres Silent (handleHbTimeout r) := by
  unfold handleHbTimeout
  pres silentPo using sil_modPeer, sil_requestAppend
  all_goals mu

/-! ## Requests -/

theorem sil_skipSame : ∀ (es : List Entry) (i : Nat), Pres Silent (skipSame i es)
  | [], _ => pres_pure silentPo _
  | e :: es, i => by
    have ih := sil_skipSame es
    unfold skipSame
    pres silentPo using sil_termAt, ih
theorem sil_rollbackOld (i : Nat) : Pres Silent (rollbackOld i) := by
  unfold rollbackOld
  pres silentPo using sil_entryAt, sil_emit, sil_mod
  all_goals mu
theorem sil_noteNew (i : Nat) (e : Entry) : Pres Silent (noteNew i e) := by
  unfold noteNew
  pres silentPo using sil_emit, sil_mod
  all_goals mu
theorem sil_overwriteOld : ∀ (es : List Entry) (i : Nat), Pres Silent (overwriteOld i es)
  | [], _ => pres_pure silentPo _
  | e :: es, i => by
    have ih := sil_overwriteOld es
    unfold overwriteOld
    pres silentPo using sil_rollbackOld, sil_logWriteAt, sil_noteNew, ih
theorem sil_appendNew : ∀ (es : List Entry), Pres Silent (appendNew es)
  | [] => pres_pure silentPo _
  | e :: es => by
    have ih := sil_appendNew es
    unfold appendNew
    pres silentPo using sil_logAppend, sil_noteNew, ih
theorem sil_storeEntries (r : Req) : Pres Silent (storeEntries r) := by
  unfold storeEntries
  pres silentPo using sil_skipSame, sil_overwriteOld, sil_appendNew
  all_goals mu
theorem sil_hearLeader (r : Req) : Pres Silent (hearLeader r) := by
  unfold hearLeader
  refine pres_getBind fun s => ?_
  show At Silent s _
  split
  · split
    · next h =>
      show Silent s (becomeFollower s).2
      rw [run_becomeFollower]
      exact silent_stepDown s
    · exact sil_die _ s
    · exact sil_restart s
  · exact silentPo.refl s
theorem sil_logOkay (r : Req) : Pres Silent (logOkay r) := by
  unfold logOkay
  pres silentPo using sil_termForLog
  all_goals mu
theorem sil_handleAppendEntries (r : Req) : Pres Silent (handleAppendEntries r) := by
  unfold handleAppendEntries
  pres silentPo using sil_hearLeader, sil_logOkay, sil_storeEntries, sil_mod, sil_commit
  all_goals mu
theorem sil_handleVoteReq (r : Req) : Pres Silent (handleVoteReq r) := by
  unfold handleVoteReq
  pres silentPo using sil_mod, sil_saveState
  all_goals mu
theorem sil_handlePrevoteReq (r : Req) : Pres Silent (handlePrevoteReq r) := by
  unfold handlePrevoteReq
  pres silentPo using sil_mod
  all_goals mu
theorem sil_isLeader : Pres Silent isLeader := by
  unfold isLeader
  refine pres_getBind fun s => ?_
  by_cases h : s.role = .leader ∧ 0 < s.peers.length ∧ s.params.electionUpper * 2 < s.elapsed
  · simp only [if_pos h]
    have h1 : Silent s { s with elapsed := toI32 ((s.now : Int) - quorumResp s) } :=
      Silent.calm rfl
    rw [bind_modify]
    generalize { s with elapsed := toI32 ((s.now : Int) - quorumResp s) } = s1 at h1 ⊢
    have h2 : Pres Silent (do
        let s ← get
        if s.params.electionUpper * 2 < s.elapsed then pure false
        else pure (decide (s.role = .leader)) : R Bool) := by
      pres silentPo using sil_emit
    exact silentPo.trans h1 (h2 s1)
  · simp only [if_neg h]
    exact silentPo.refl s
theorem sil_appendClient : ∀ (es : List Entry), Pres Silent (appendClient es)
  | [] => pres_pure silentPo _
  | e :: es => by
    have ih := sil_appendClient es
    unfold appendClient
    pres silentPo using sil_logAppend, sil_emit, ih
    all_goals mu
theorem sil_handleCliReq (r : Req) : Pres Silent (handleCliReq r) := by
  unfold handleCliReq
  pres silentPo using sil_isLeader, sil_appendClient, sil_requestAppendAll
  all_goals mu
theorem sil_addPeer (c : SrvCfg) : Pres Silent (addPeer c) := by
  unfold addPeer
  pres silentPo using sil_noJoin, sil_mod, sil_enableHb, sil_modPeer
  all_goals mu
theorem sil_removePeer (c : Config) (i : Int) : Pres Silent (removePeer c i) := by
  unfold removePeer
  pres silentPo using sil_emit, sil_die, sil_mod
  all_goals mu
theorem sil_reconfigure (c : Config) : Pres Silent (reconfigure c) := by
  unfold reconfigure
  pres silentPo using sil_addPeer, sil_removePeer, sil_mod
  all_goals mu
theorem sil_installSnapshot (q : Snap) : Pres Silent (installSnapshot q) := by
  unfold installSnapshot
  pres silentPo using sil_die, sil_logCompact, sil_stop, sil_emit, sil_mod, sil_reconfigure, sil_saveState, sil_restart
  all_goals mu
theorem sil_handleSnapshotSync (q : SnpSync) : Pres Silent (handleSnapshotSync q) := by
  unfold handleSnapshotSync
  pres silentPo using sil_emit, sil_die, sil_installSnapshot
  all_goals mu
theorem sil_hearSnapshotLeader (r : Req) : Pres Silent (hearSnapshotLeader r) := by
  unfold hearSnapshotLeader
  refine pres_getBind fun s => ?_
  show At Silent s _
  split
  · split
    · next h =>
      show Silent s (becomeFollower s).2
      rw [run_becomeFollower]
      exact silent_stepDown s
    · exact sil_die _ s
    · exact sil_restart s
  · exact silentPo.refl s
theorem sil_handleInstallSnapshot (r : Req) : Pres Silent (handleInstallSnapshot r) := by
  unfold handleInstallSnapshot
  pres silentPo using sil_hearSnapshotLeader, sil_handleSnapshotSync
theorem sil_handleRmSrv (r : Req) : Pres Silent (handleRmSrv r) := by
  unfold handleRmSrv
  pres silentPo using sil_emit
  all_goals mu
theorem sil_inviteSrv : Pres Silent inviteSrv := by
  unfold inviteSrv
  pres silentPo using sil_getPeer, sil_emit
  all_goals mu
theorem sil_handleAddSrv (r : Req) : Pres Silent (handleAddSrv r) := by
  unfold handleAddSrv
  have h0 : ∀ c : SrvCfg, Pres Silent (modify fun s : Srv =>
      { s with srvToJoin := some { cfg := c, hbInterval := s.params.hbInterval } } : R PUnit) := by
    intro c s
    exact Silent.calm rfl
  pres silentPo using h0, sil_mod, sil_inviteSrv
  all_goals mu
theorem sil_handleLogSync (r : Req) : Pres Silent (handleLogSync r) := by
  unfold handleLogSync
  pres silentPo using sil_logApplyPack, sil_commit
  all_goals mu
theorem sil_handleLeave (r : Req) : Pres Silent (handleLeave r) := by
  unfold handleLeave
  pres silentPo using sil_mod
  all_goals mu
theorem sil_hearTerm (r : Req) : Pres Silent (hearTerm r) := by
  unfold hearTerm
  pres silentPo using sil_updateTerm, sil_mod
  all_goals mu

/-! ## Responses -/
theorem sil_acceptedResp (r : Resp) : Pres Silent (acceptedResp r) := by
  unfold acceptedResp
  pres silentPo using sil_modPeer, sil_commit, sil_getPeer
  all_goals mu
theorem sil_refusedResp (r : Resp) : Pres Silent (refusedResp r) := by
  unfold refusedResp
  pres silentPo using sil_modPeer
  all_goals mu
theorem sil_handleAppendResp (r : Resp) : Pres Silent (handleAppendResp r) := by
  unfold handleAppendResp
  pres silentPo using sil_acceptedResp, sil_refusedResp, sil_requestAppendTo
theorem sil_acceptedSnpResp (r : Resp) : Pres Silent (acceptedSnpResp r) := by
  unfold acceptedSnpResp
  pres silentPo using sil_modPeer, sil_getPeer
  all_goals mu
theorem sil_handleSnpResp (r : Resp) : Pres Silent (handleSnpResp r) := by
  unfold handleSnpResp
  pres silentPo using sil_acceptedSnpResp, sil_requestAppendTo
theorem sil_handleVotingResp (r : Resp) : Pres Silent (handleVotingResp r) := by
  unfold handleVotingResp
  pres silentPo using sil_mod, sil_becomeLeader
  all_goals mu
theorem sil_dispatchResp (r : Resp) : Pres Silent (dispatchResp r) := by
  unfold dispatchResp
  split
  · exact sil_handleVotingResp r
  all_goals pres silentPo using sil_handleAppendResp, sil_handleSnpResp, sil_die
theorem sil_handlePeerResp (r : Resp) : Pres Silent (handlePeerResp r) := by
  unfold handlePeerResp
  pres silentPo using sil_modPeer, sil_updateTerm, sil_dispatchResp
  all_goals mu
theorem sil_handlePrevoteResp (r : Resp) : Pres Silent (handlePrevoteResp r) := by
  unfold handlePrevoteResp
  pres silentPo using sil_mod, sil_becomeCandidate, sil_restart
  all_goals mu
theorem sil_addToConfig : Pres Silent addToConfig := by
  unfold addToConfig
  pres silentPo using sil_logAppend, sil_mod, sil_requestAppendAll
  all_goals mu
theorem sil_syncLogToNewSrv (i : Nat) : Pres Silent (syncLogToNewSrv i) := by
  unfold syncLogToNewSrv
  pres silentPo using sil_addToConfig, sil_createSync, sil_getPeer, sil_emit
  all_goals mu
theorem sil_rmSrvFromCluster (i : Int) : Pres Silent (rmSrvFromCluster i) := by
  unfold rmSrvFromCluster
  pres silentPo using sil_logAppend, sil_mod, sil_requestAppendAll
  all_goals mu
theorem sil_handleExtSnpResp (r : Resp) : Pres Silent (handleExtSnpResp r) := by
  unfold handleExtSnpResp
  pres silentPo using sil_die, sil_modPeer, sil_getPeer, sil_syncLogToNewSrv
  all_goals mu
theorem sil_handleExtResp (r : Resp) : Pres Silent (handleExtResp r) := by
  unfold handleExtResp
  refine pres_getBind fun s => ?_
  have h1 : Pres Silent (do
      modPeer .joining fun p => { p with nextIdx := r.nextIdx, matched := subU64 r.nextIdx 1 }
      syncLogToNewSrv r.nextIdx : R Unit) := by
    pres silentPo using sil_modPeer, sil_syncLogToNewSrv
    all_goals mu
  show At Silent s _
  split
  · split
    · exact silentPo.refl s
    · exact silentPo.trans (sil_modPeer .joining (resumeHb s.params) s) (h1 _)
  · split
    · exact silentPo.refl s
    · split
      · exact sil_syncLogToNewSrv _ s
      · exact silentPo.refl s
  · split
    · exact sil_rmSrvFromCluster _ s
    · exact silentPo.refl s
  · exact sil_handleExtSnpResp r s
  · exact sil_handlePrevoteResp r s
  · exact sil_die _ s
theorem sil_forceRemove (i : Int) : Pres Silent (forceRemove i) := by
  unfold forceRemove
  refine pres_bind silentPo (fun s => ?_) fun _ => sil_rmSrvFromCluster i
  show Silent s { s with peers := if s.peers.length = 1 then s.peers.filter fun p => p.id != i else s.peers }
  split
  · exact Silent.calm rfl
  · exact silentPo.refl s
theorem sil_handleExtErr (r : Req) : Pres Silent (handleExtErr r) := by
  unfold handleExtErr
  refine pres_getBind fun s => ?_
  show At Silent s _
  split
  · split
    · exact silentPo.refl s
    · split
      · exact sil_forceRemove _ s
      · exact sil_modPeer _ (slowDownHb s.params) s
  · split
    · exact silentPo.refl s
    · split
      · exact Silent.calm rfl
      · exact sil_modPeer _ (slowDownHb s.params) s
  · split
    · exact silentPo.refl s
    · split
      · exact Silent.calm rfl
      · exact sil_modPeer _ (slowDownHb s.params) s
  · exact silentPo.refl s
theorem sil_retryReq (r : Req) : Pres Silent (retryReq r) := by
  unfold retryReq
  pres silentPo using sil_emit
  all_goals mu
theorem sil_rpcResult (p : PeerRef) (ty : MsgType) (ok : Bool) : Pres Silent (rpcResult p ty ok) := by
  unfold rpcResult
  pres silentPo using sil_modPeer

/-! ## Commit thread and application -/
theorem sil_commitConf (c : Config) : Pres Silent (commitConf c) := by
  unfold commitConf
  pres silentPo using sil_emit, sil_mod, sil_reconfigure
  all_goals mu
theorem sil_findConf (i : Nat) : ∀ (n : Nat) (c : Config), Pres Silent (findConf i n c)
  | 0, _ => pres_throw silentPo _
  | n + 1, c => by
    have ih := sil_findConf i n
    unfold findConf
    pres silentPo using sil_entryAt, ih
theorem sil_confForSnap (i : Nat) : Pres Silent (confForSnap i) := by
  unfold confForSnap
  pres silentPo using sil_findConf, sil_die
  all_goals mu
theorem sil_keepSnap (q : Snap) : Pres Silent (keepSnap q) := by
  unfold keepSnap
  pres silentPo using sil_mod, sil_emit
  all_goals mu
theorem sil_startSnapshot (i : Nat) : Pres Silent (startSnapshot i) := by
  unfold startSnapshot
  pres silentPo using sil_confForSnap, sil_termAt, sil_emit, sil_mod, sil_keepSnap
  all_goals mu
theorem sil_snapshotAndCompact (i : Nat) : Pres Silent (snapshotAndCompact i) := by
  unfold snapshotAndCompact
  pres silentPo using sil_mod, sil_startSnapshot
  all_goals mu
theorem sil_onSnapshotCompleted (q : Snap) (ok : Bool) : Pres Silent (onSnapshotCompleted q ok) := by
  unfold onSnapshotCompleted
  pres silentPo using sil_mod, sil_logCompact
  all_goals mu
theorem sil_applyEntry (i : Nat) (e : Entry) : Pres Silent (applyEntry i e) := by
  unfold applyEntry
  pres silentPo using sil_emit, sil_commitConf
  all_goals mu
theorem sil_applyOne : Pres Silent applyOne := by
  unfold applyOne
  pres silentPo using sil_mod, sil_entryToApply, sil_applyEntry, sil_snapshotAndCompact
  all_goals mu
theorem sil_replicateLog (d : Nat) : Pres Silent (replicateLog d) := by
  unfold replicateLog
  pres silentPo using sil_isLeader, sil_logAppend, sil_requestAppendAll
  all_goals mu

/-! ## Whole inputs -/
theorem sil_handleJoin (r : Req) : Pres Silent (handleJoin r) := by
  unfold handleJoin
  pres silentPo using sil_mod, sil_saveState, sil_reconfigure
  all_goals mu
theorem sil_processReq (r : Req) : Pres Silent (processReq r) := by
  have h1 : Pres Silent (handleExtended r) := by
    unfold handleExtended
    split
    · exact sil_handleAddSrv r
    · exact sil_handleRmSrv r
    · exact sil_handleLogSync r
    · exact sil_handleJoin r
    · exact sil_handleLeave r
    · exact sil_handleInstallSnapshot r
    · exact sil_handlePrevoteReq r
    · exact sil_die _
  have h2 : Pres Silent (dispatch r) := by
    unfold dispatch
    pres silentPo using sil_handleAppendEntries, sil_handleVoteReq, sil_handleCliReq, h1
  exact pres_bind silentPo (sil_hearTerm r) fun _ => h2

/-- Every input but requests. -/
theorem sil_run (x : Input) (hx : ∀ r, x ≠ .req r) : Pres Silent x.run := by
  cases x with
  | req r => exact absurd rfl (hx r)
  | peerResp ty r => exact pres_bind silentPo (sil_rpcResult _ _ _) fun _ => sil_handlePeerResp r
  | extResp p ty r => exact pres_bind silentPo (sil_rpcResult _ _ _) fun _ => sil_handleExtResp r
  | peerErr r => exact sil_rpcResult _ _ _
  | extErr p r => exact pres_bind silentPo (sil_rpcResult _ _ _) fun _ => sil_handleExtErr r
  | retry r => exact sil_retryReq r
  | electionTimeout => exact sil_handleElectionTimeout
  | hbTimeout id => exact sil_handleHbTimeout _
  | apply => exact sil_applyOne
  | snapDone q ok =>
    exact pres_ite (pres_bind silentPo (sil_keepSnap q) fun _ => sil_onSnapshotCompleted q true) (sil_onSnapshotCompleted q false)
  | replicate d => exact pres_bind silentPo (sil_replicateLog d) fun _ => pres_pure silentPo _
  | tick n => exact sil_mod fun s => Silent.calm rfl

/-- An answer is what the handler of the request has returned. -/
theorem answer_of_request {x : Input} {s : Srv} {a : Resp} (hs : s.trace = []) (h : .reply a ∈ (x.run s).2.trace) :
    ∃ q s', x = .req q ∧ processReq q s = (.ok a, s') := by
  by_cases hx : ∃ q, x = .req q
  · obtain ⟨q, rfl⟩ := hx
    obtain ⟨es, h1, h2⟩ := sil_processReq q s
    rw [hs, List.nil_append] at h1
    have he : (Input.req q).run = processReq q >>= fun a => emit (.reply a) := rfl
    rw [he, run_bind] at h
    rcases hp : processReq q s with ⟨e | b, s1⟩
    · rw [hp] at h h1
      have h1 : s1.trace = es := h1
      have h : .reply a ∈ s1.trace := h
      exact absurd (h1 ▸ h) (h2 a)
    · rw [hp] at h h1
      have h1 : s1.trace = es := h1
      have h : .reply a ∈ s1.trace ++ [.reply b] := h
      rcases List.mem_append.1 h with h | h
      · exact absurd (h1 ▸ h) (h2 a)
      · have := List.mem_singleton.1 h
        cases this
        exact ⟨q, s1, rfl, hp⟩
  · obtain ⟨es, h1, h2⟩ := sil_run x (fun r hr => hx ⟨r, hr⟩) s
    rw [hs, List.nil_append] at h1
    exact absurd (h1 ▸ h) (h2 a)

end Cs.Raft
