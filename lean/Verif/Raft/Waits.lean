import Verif.Raft.PropsAnnounce

/-!
# Configurations that wait to be applied

A walk over the handlers: unless a configuration is applied or overwritten, the flag `config_changing_` stays set, and it is set if a
configuration is put in the log.
-/

set_option linter.unusedSectionVars false
set_option linter.unusedVariables false

namespace Cs.Raft
open Cs

/-- The applied index stays, the flag is not reset, and new configurations in the log set it. -/
def WaitsEq (s s' : Srv) : Prop :=
  s'.smCommit = s.smCommit ∧ (s.configChanging = true → s'.configChanging = true) ∧
    ∀ k e, s'.log.get? k = some e → e.isConf = true → s'.smCommit < k → s.log.get? k = some e ∨ s'.configChanging = true

theorem weqPo : PO WaitsEq := by
  refine ⟨fun s => ⟨rfl, fun h => h, fun k e h _ _ => .inl h⟩, ?_⟩
  rintro a b c ⟨h1, h2, h3⟩ ⟨g1, g2, g3⟩
  refine ⟨g1.trans h1, fun h => g2 (h2 h), fun k e hk he hs => ?_⟩
  rcases g3 k e hk he hs with h | h
  · rcases h3 k e h he (by omega) with h' | h'
    · exact .inl h'
    · exact .inr (g2 h')
  · exact .inr h

theorem waits_same {s s' : Srv} (h1 : s'.smCommit = s.smCommit) (h2 : s'.configChanging = s.configChanging) (h3 : s'.log = s.log) :
    WaitsEq s s' := ⟨h1, fun h => by rw [h2]; exact h, fun k e h _ _ => by rw [h3] at h; exact .inl h⟩

theorem waits_add {s s' : Srv} {e : Entry} (h : s'.smCommit = s.smCommit ∧ s'.configChanging = true) (hl : s'.log = s.log.append e) :
    WaitsEq s s' := ⟨h.1, fun _ => h.2, fun _ _ _ _ _ => .inr h.2⟩

theorem pd_mod {f : Srv → Srv} (h : ∀ s, (f s).smCommit = s.smCommit ∧ (f s).configChanging = s.configChanging ∧ (f s).log = s.log) :
    Pres WaitsEq (modify f : R PUnit) := fun s => waits_same (h s).1 (h s).2.1 (h s).2.2
theorem pd_emit (e : Eff) : Pres WaitsEq (emit e) := fun s => waits_same rfl rfl rfl
theorem pd_modPeer (r : PeerRef) (f : Peer → Peer) : Pres WaitsEq (modPeer r f) := fun s => by
  cases r <;> exact waits_same rfl rfl rfl

/-- The primitive updates. -/
macro "pd" : tactic => `(tactic| first | rfl | exact pd_mod fun _ => ⟨rfl, rfl, rfl⟩ | exact pd_mod fun _ => (by split <;> exact ⟨rfl, rfl, rfl⟩) | exact waits_same rfl rfl rfl | (intro _; exact waits_same rfl rfl rfl))

theorem pd_logCompact (i : Nat) : Pres WaitsEq (logCompact i) := by
  intro s
  unfold logCompact
  rw [bind_get]
  by_cases h : i < s.log.start
  · rw [if_pos h]; exact weqPo.refl s
  · rw [if_neg h]
    by_cases hc : s.env.compactOk i
    · rw [if_pos hc]
      exact ⟨rfl, fun h => h, fun k e hk _ _ => .inl (Log.get?_compact_some (l := s.log) (i := i) (by omega) hk)⟩
    · rw [if_neg hc]; exact weqPo.refl s

theorem pd_die {α : Type} (c : Int) : Pres WaitsEq (die c : R α) := by
  unfold die
  pres weqPo using pd_emit
  all_goals pd
theorem pd_saveState  : Pres WaitsEq (saveState) := by
  unfold saveState
  pres weqPo using pd_emit
  all_goals pd
theorem pd_getPeer (r : PeerRef) : Pres WaitsEq (getPeer r) := by
  unfold getPeer
  pres weqPo using pd_emit
  all_goals pd
theorem pd_peerIds  : Pres WaitsEq (peerIds) := by
  unfold peerIds
  pres weqPo using pd_emit
  all_goals pd
theorem pd_termAt (i : Nat) : Pres WaitsEq (termAt i) := by
  unfold termAt
  pres weqPo using pd_emit
  all_goals pd
theorem pd_entryAt (i : Nat) : Pres WaitsEq (entryAt i) := by
  unfold entryAt
  pres weqPo using pd_emit
  all_goals pd
theorem pd_entryToApply (i : Nat) : Pres WaitsEq (entryToApply i) := by
  unfold entryToApply
  pres weqPo using pd_die
  all_goals pd
theorem pd_termForLog (i : Nat) : Pres WaitsEq (termForLog i) := by
  unfold termForLog
  pres weqPo using pd_die, pd_termAt
  all_goals pd
theorem pd_restartElectionTimer  : Pres WaitsEq (restartElectionTimer) := by
  unfold restartElectionTimer
  pres weqPo using pd_emit
  all_goals pd
theorem pd_stopElectionTimer  : Pres WaitsEq (stopElectionTimer) := by
  unfold stopElectionTimer
  pres weqPo using pd_emit
  all_goals pd
theorem pd_enableHb (r : PeerRef) : Pres WaitsEq (enableHb r) := by
  unfold enableHb
  pres weqPo using pd_modPeer
  all_goals pd
theorem pd_becomeFollower  : Pres WaitsEq (becomeFollower) := by
  unfold becomeFollower
  pres weqPo using pd_emit, pd_restartElectionTimer
  all_goals pd
theorem pd_updateTerm (term : Nat) : Pres WaitsEq (updateTerm term) := by
  unfold updateTerm
  pres weqPo using pd_saveState, pd_becomeFollower
  all_goals pd
theorem pd_chooseSnap (r : PeerRef) (lastIdx : Nat) : Pres WaitsEq (chooseSnap r lastIdx) := by
  unfold chooseSnap
  pres weqPo using pd_die, pd_modPeer, pd_getPeer
  all_goals pd
theorem pd_createSyncSnapshotReq (r : PeerRef) (lastIdx term commitIdx : Nat) : Pres WaitsEq (createSyncSnapshotReq r lastIdx term commitIdx) := by
  unfold createSyncSnapshotReq
  pres weqPo using pd_die, pd_getPeer, pd_chooseSnap
  all_goals pd
theorem pd_entriesFrom (last : Nat) : Pres WaitsEq (entriesFrom last) := by
  unfold entriesFrom
  pres weqPo using pd_emit
  all_goals pd
theorem pd_appendReqFrom (r : PeerRef) (last : Nat) : Pres WaitsEq (appendReqFrom r last) := by
  unfold appendReqFrom
  pres weqPo using pd_getPeer, pd_termForLog, pd_entriesFrom
  all_goals pd
theorem pd_createAppendReq (r : PeerRef) : Pres WaitsEq (createAppendReq r) := by
  unfold createAppendReq
  pres weqPo using pd_die, pd_modPeer, pd_getPeer, pd_createSyncSnapshotReq, pd_appendReqFrom
  all_goals pd
theorem pd_requestAppend (r : PeerRef) : Pres WaitsEq (requestAppend r) := by
  unfold requestAppend
  pres weqPo using pd_emit, pd_modPeer, pd_getPeer, pd_createAppendReq
  all_goals pd
theorem pd_commitNotify (id : Int) : Pres WaitsEq (commitNotify id) := by
  unfold commitNotify
  pres weqPo using pd_modPeer, pd_requestAppend
  all_goals pd
theorem pd_commit (target : Nat) : Pres WaitsEq (commit target) := by
  unfold commit
  pres weqPo using pd_emit, pd_peerIds, pd_commitNotify
  all_goals pd
theorem pd_requestAppendTo (id : Int) : Pres WaitsEq (requestAppendTo id) := by
  unfold requestAppendTo
  pres weqPo using pd_requestAppend
  all_goals pd
theorem pd_requestAppendAll  : Pres WaitsEq (requestAppendAll) := by
  unfold requestAppendAll
  pres weqPo using pd_peerIds, pd_commit, pd_requestAppendTo
  all_goals pd
theorem pd_leaderPeer (id : Int) : Pres WaitsEq (leaderPeer id) := by
  unfold leaderPeer
  pres weqPo using pd_modPeer, pd_enableHb
  all_goals pd
theorem pd_initialConf : Pres WaitsEq initialConf := by
  intro s
  unfold initialConf
  rw [bind_get]
  by_cases h : s.config.logIdx = 0
  · rw [if_pos h]
    exact waits_add (s' := _) ⟨rfl, rfl⟩ rfl
  · rw [if_neg h]; exact weqPo.refl s
theorem pd_becomeLeader  : Pres WaitsEq (becomeLeader) := by
  unfold becomeLeader
  pres weqPo using pd_emit, pd_initialConf, pd_peerIds, pd_stopElectionTimer, pd_requestAppendAll, pd_leaderPeer
  all_goals pd
theorem pd_askVote (ty : MsgType) (id : Int) : Pres WaitsEq (askVote ty id) := by
  unfold askVote
  pres weqPo using pd_emit, pd_termForLog
  all_goals pd
theorem pd_voteSelf  : Pres WaitsEq (voteSelf) := by
  unfold voteSelf
  pres weqPo using pd_saveState
  all_goals pd
theorem pd_askForVotes  : Pres WaitsEq (askForVotes) := by
  unfold askForVotes
  pres weqPo using pd_peerIds, pd_becomeLeader, pd_askVote
  all_goals pd
theorem pd_requestVote  : Pres WaitsEq (requestVote) := by
  unfold requestVote
  pres weqPo using pd_voteSelf, pd_askForVotes
  all_goals pd
theorem pd_startTerm  : Pres WaitsEq (startTerm) := by
  unfold startTerm
  pres weqPo using pd_saveState
  all_goals pd
theorem pd_rearm  : Pres WaitsEq (rearm) := by
  unfold rearm
  pres weqPo using pd_restartElectionTimer
  all_goals pd
theorem pd_becomeCandidate  : Pres WaitsEq (becomeCandidate) := by
  unfold becomeCandidate
  pres weqPo using pd_requestVote, pd_startTerm, pd_rearm
  all_goals pd
theorem pd_requestPrevote  : Pres WaitsEq (requestPrevote) := by
  unfold requestPrevote
  pres weqPo using pd_peerIds, pd_askVote, pd_becomeCandidate
  all_goals pd
theorem pd_leaveConfig  : Pres WaitsEq (leaveConfig) := by
  unfold leaveConfig
  pres weqPo using pd_emit
  all_goals pd
theorem pd_handleElectionTimeout  : Pres WaitsEq (handleElectionTimeout) := by
  unfold handleElectionTimeout
  pres weqPo using pd_die, pd_restartElectionTimer, pd_becomeCandidate, pd_requestPrevote, pd_leaveConfig
  all_goals pd
theorem pd_handleHbTimeout (r : PeerRef) : Pres WaitsEq (handleHbTimeout r) := by
  unfold handleHbTimeout
  pres weqPo using pd_modPeer, pd_requestAppend
  all_goals pd
theorem pd_skipSame (idx : Nat) (es : List Entry) : Pres WaitsEq (skipSame idx es) := by
  induction es generalizing idx with
  | nil => exact pres_pure weqPo _
  | cons e es ih =>
    unfold skipSame
    pres weqPo using pd_termAt, ih
    all_goals pd
theorem pd_appendNew (es : List Entry) : Pres WaitsEq (appendNew es) := by
  induction es with
  | nil => exact pres_pure weqPo _
  | cons e es ih =>
    intro s
    unfold appendNew
    rw [bind_get]
    have h1 : logAppend e s = (.ok ⟨⟩, { s with log := s.log.append e, trace := s.trace ++ [.append e] }) := rfl
    rw [run_bind_ok h1, run_bind_ok (run_noteNew _ _ _)]
    refine weqPo.trans ?_ (ih _)
    refine ⟨rfl, ?_, fun k x hk hc hs => ?_⟩
    · intro hf; show (s.configChanging || e.isConf) = true; rw [hf]; rfl
    · rcases Log.get?_append hk with ⟨_, h⟩ | ⟨_, h⟩
      · exact .inl h
      · subst h; right; show (s.configChanging || x.isConf) = true; rw [hc, Bool.or_true]
theorem pd_hearLeader (req : Req) : Pres WaitsEq (hearLeader req) := by
  unfold hearLeader
  pres weqPo using pd_die, pd_restartElectionTimer, pd_becomeFollower
  all_goals pd
theorem pd_logOkay (req : Req) : Pres WaitsEq (logOkay req) := by
  unfold logOkay
  pres weqPo using pd_termForLog
  all_goals pd
theorem pd_handleVoteReq (req : Req) : Pres WaitsEq (handleVoteReq req) := by
  unfold handleVoteReq
  pres weqPo using pd_saveState
  all_goals pd
theorem pd_handlePrevoteReq (req : Req) : Pres WaitsEq (handlePrevoteReq req) := by
  unfold handlePrevoteReq
  pres weqPo using pd_emit
  all_goals pd
theorem pd_isLeader  : Pres WaitsEq (isLeader) := by
  unfold isLeader
  pres weqPo using pd_emit
  all_goals pd
theorem pd_appendClient (es : List Entry) (hc : ∀ e ∈ es, e.isApp = true) : Pres WaitsEq (appendClient es) := by
  induction es with
  | nil => exact pres_pure weqPo _
  | cons e es ih =>
    intro s
    unfold appendClient
    rw [bind_get]
    have h1 : ∀ e, logAppend e s = (.ok ⟨⟩, { s with log := s.log.append e, trace := s.trace ++ [.append e] }) := fun _ => rfl
    have h2 : ∀ (e : Eff) (s : Srv), emit e s = (.ok ⟨⟩, { s with trace := s.trace ++ [e] }) := fun _ _ => rfl
    rw [run_bind_ok (h1 _), run_bind_ok (h2 _ _)]
    refine weqPo.trans ?_ (ih (fun e he => hc e (List.mem_cons_of_mem _ he)) _)
    refine ⟨rfl, fun h => h, fun k x hk hx hs => ?_⟩
    rcases Log.get?_append hk with ⟨_, h⟩ | ⟨_, h⟩
    · exact .inl h
    · subst h
      have h3 := hc e (List.mem_cons_self ..)
      obtain ⟨t, v⟩ := e
      cases v <;> first | (cases hx; done) | (cases h3; done)
theorem pd_addPeer (c : SrvCfg) : Pres WaitsEq (addPeer c) := by
  unfold addPeer
  pres weqPo using pd_modPeer, pd_enableHb
  all_goals pd
theorem pd_removePeer (c : Config) (id : Int) : Pres WaitsEq (removePeer c id) := by
  unfold removePeer
  pres weqPo using pd_emit, pd_die
  all_goals pd
theorem pd_reconfigure (c : Config) : Pres WaitsEq (reconfigure c) := by
  unfold reconfigure
  pres weqPo using pd_addPeer, pd_removePeer
  all_goals pd
theorem pd_hearSnapshotLeader (req : Req) : Pres WaitsEq (hearSnapshotLeader req) := by
  unfold hearSnapshotLeader
  pres weqPo using pd_die, pd_restartElectionTimer, pd_becomeFollower
  all_goals pd
theorem pd_handleRmSrv (req : Req) : Pres WaitsEq (handleRmSrv req) := by
  unfold handleRmSrv
  pres weqPo using pd_emit
  all_goals pd
theorem pd_inviteSrv  : Pres WaitsEq (inviteSrv) := by
  unfold inviteSrv
  pres weqPo using pd_emit, pd_getPeer
  all_goals pd
theorem pd_handleAddSrv (req : Req) : Pres WaitsEq (handleAddSrv req) := by
  unfold handleAddSrv
  pres weqPo using pd_inviteSrv
  all_goals pd
theorem pd_handleLeave (req : Req) : Pres WaitsEq (handleLeave req) := by
  unfold handleLeave
  pres weqPo using pd_emit
  all_goals pd
theorem pd_hearTerm (req : Req) : Pres WaitsEq (hearTerm req) := by
  unfold hearTerm
  pres weqPo using pd_updateTerm
  all_goals pd
theorem pd_acceptedResp (resp : Resp) : Pres WaitsEq (acceptedResp resp) := by
  unfold acceptedResp
  pres weqPo using pd_modPeer, pd_getPeer, pd_commit
  all_goals pd
theorem pd_refusedResp (resp : Resp) : Pres WaitsEq (refusedResp resp) := by
  unfold refusedResp
  pres weqPo using pd_modPeer
  all_goals pd
theorem pd_handleAppendResp (resp : Resp) : Pres WaitsEq (handleAppendResp resp) := by
  unfold handleAppendResp
  pres weqPo using pd_requestAppendTo, pd_acceptedResp, pd_refusedResp
  all_goals pd
theorem pd_acceptedSnpResp (resp : Resp) : Pres WaitsEq (acceptedSnpResp resp) := by
  unfold acceptedSnpResp
  pres weqPo using pd_modPeer, pd_getPeer
  all_goals pd
theorem pd_handleSnpResp (resp : Resp) : Pres WaitsEq (handleSnpResp resp) := by
  unfold handleSnpResp
  pres weqPo using pd_requestAppendTo, pd_acceptedSnpResp
  all_goals pd
theorem pd_handleVotingResp (resp : Resp) : Pres WaitsEq (handleVotingResp resp) := by
  unfold handleVotingResp
  pres weqPo using pd_becomeLeader
  all_goals pd
theorem pd_dispatchResp (resp : Resp) : Pres WaitsEq (dispatchResp resp) := by
  unfold dispatchResp
  pres weqPo using pd_die, pd_handleAppendResp, pd_handleSnpResp, pd_handleVotingResp
  all_goals pd
theorem pd_handlePeerResp (resp : Resp) : Pres WaitsEq (handlePeerResp resp) := by
  unfold handlePeerResp
  pres weqPo using pd_modPeer, pd_updateTerm, pd_dispatchResp
  all_goals pd
theorem pd_handlePrevoteResp (resp : Resp) : Pres WaitsEq (handlePrevoteResp resp) := by
  unfold handlePrevoteResp
  pres weqPo using pd_restartElectionTimer, pd_becomeCandidate
  all_goals pd
theorem pd_seq1 (e : Entry) {k : R Unit} (hk : Pres WaitsEq k) :
    Pres WaitsEq (do logAppend e; modify (fun s => { s with configChanging := true }); k : R Unit) := fun s =>
  weqPo.trans (b := { s with log := s.log.append e, trace := s.trace ++ [.append e], configChanging := true })
    (waits_add (e := e) ⟨rfl, rfl⟩ rfl) (hk _)
theorem pd_addToConfig : Pres WaitsEq addToConfig := by
  unfold addToConfig
  refine pres_bind weqPo (pres_get weqPo) fun s => ?_
  split
  · exact pres_throw weqPo _
  · exact pd_seq1 _ pd_requestAppendAll
theorem pd_syncLogToNewSrv (start : Nat) : Pres WaitsEq (syncLogToNewSrv start) := by
  unfold syncLogToNewSrv
  pres weqPo using pd_emit, pd_addToConfig, pd_getPeer, pd_createSyncSnapshotReq
  all_goals pd
theorem pd_seq2 (e : Entry) {k : R Unit} (hk : Pres WaitsEq k) :
    Pres WaitsEq (do modify (fun s => { s with configChanging := true }); logAppend e; k : R Unit) := fun s =>
  weqPo.trans (b := { s with log := s.log.append e, trace := s.trace ++ [.append e], configChanging := true })
    (waits_add (e := e) ⟨rfl, rfl⟩ rfl) (hk _)
theorem pd_rmSrvFromCluster (id : Int) : Pres WaitsEq (rmSrvFromCluster id) := by
  unfold rmSrvFromCluster
  exact pres_bind weqPo (pres_get weqPo) fun s => pd_seq2 _ pd_requestAppendAll
theorem pd_handleExtSnpResp (resp : Resp) : Pres WaitsEq (handleExtSnpResp resp) := by
  unfold handleExtSnpResp
  pres weqPo using pd_die, pd_modPeer, pd_getPeer, pd_syncLogToNewSrv
  all_goals pd
theorem pd_handleExtResp (resp : Resp) : Pres WaitsEq (handleExtResp resp) := by
  unfold handleExtResp
  pres weqPo using pd_die, pd_modPeer, pd_rmSrvFromCluster, pd_handlePrevoteResp, pd_syncLogToNewSrv, pd_handleExtSnpResp
  all_goals pd
theorem pd_forceRemove (id : Int) : Pres WaitsEq (forceRemove id) := by
  unfold forceRemove
  pres weqPo using pd_rmSrvFromCluster
  all_goals pd
theorem pd_retryReq (req : Req) : Pres WaitsEq (retryReq req) := by
  unfold retryReq
  pres weqPo using pd_emit
  all_goals pd
theorem pd_rpcResult (r : PeerRef) (ty : MsgType) (ok : Bool) : Pres WaitsEq (rpcResult r ty ok) := by
  unfold rpcResult
  pres weqPo using pd_modPeer
  all_goals pd
theorem pd_findConf (idx n : Nat) (c : Config) : Pres WaitsEq (findConf idx n c) := by
  induction n generalizing c with
  | zero => exact pres_throw weqPo _
  | succ n ih =>
    unfold findConf
    pres weqPo using pd_entryAt, pd_die, ih
    all_goals pd
theorem pd_confForSnap (idx : Nat) : Pres WaitsEq (confForSnap idx) := by
  unfold confForSnap
  pres weqPo using pd_die, pd_findConf
  all_goals pd
theorem pd_startSnapshot (idx : Nat) : Pres WaitsEq (startSnapshot idx) := by
  unfold startSnapshot
  pres weqPo using pd_emit, pd_termAt, pd_confForSnap
  all_goals pd
theorem pd_snapshotAndCompact (idx : Nat) : Pres WaitsEq (snapshotAndCompact idx) := by
  unfold snapshotAndCompact
  pres weqPo using pd_startSnapshot
  all_goals pd
theorem pd_keepSnap (snp : Snap) : Pres WaitsEq (keepSnap snp) := by
  unfold keepSnap
  pres weqPo using pd_emit
  all_goals pd
theorem pd_onSnapshotCompleted (snp : Snap) (ok : Bool) : Pres WaitsEq (onSnapshotCompleted snp ok) := by
  unfold onSnapshotCompleted
  pres weqPo using pd_logCompact
  all_goals pd

end Cs.Raft
