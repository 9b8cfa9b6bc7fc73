import Verif.Raft.Steps

/-!
# What does not depend on the static variable of `is_leader`

`Ind m`: whatever value the variable has, `m` does the same and leaves it alone.
-/

namespace Cs.Raft
open Cs

/-- The same state with another value in the variable. -/
def Srv.el (e : Int) (s : Srv) : Srv := { s with elapsed := e }

/-- See above. -/
def Ind {α : Type} (m : R α) : Prop := ∀ (e : Int) (s : Srv), m (s.el e) = ((m s).1, (m s).2.el e)

variable {α β : Type}

theorem in_bind {m : R α} {k : α → R β} (h1 : Ind m) (h2 : ∀ a, Ind (k a)) : Ind (m >>= k) := by
  intro e s
  rw [run_bind, run_bind, h1 e s]
  rcases m s with ⟨a | a, s'⟩
  · rfl
  · exact h2 a e s'

theorem in_getBind {k : Srv → R β} (h1 : ∀ e s, k (s.el e) = k s) (h2 : ∀ s, Ind (k s)) : Ind (get >>= k) := by
  intro e s
  show k (s.el e) (s.el e) = _
  rw [h1]
  exact h2 s e s

theorem in_pure (a : α) : Ind (pure a : R α) := fun _ _ => rfl
theorem in_throw (f : Fault) : Ind (throw f : R α) := fun _ _ => rfl
theorem in_modify {f : Srv → Srv} (h : ∀ e s, f (s.el e) = (f s).el e) : Ind (modify f : R PUnit) := fun e s =>
  congrArg (Prod.mk (Except.ok PUnit.unit)) (h e s)
theorem in_ite {c : Prop} [Decidable c] {a b : R α} (h1 : Ind a) (h2 : Ind b) : Ind (if c then a else b) := by
  split <;> assumption
theorem in_forEach {f : α → R Unit} (hf : ∀ a, Ind (f a)) : ∀ as, Ind (forEach f as)
  | [] => in_pure ()
  | a :: as => in_bind (hf a) fun _ => in_forEach hf as
theorem in_catch {m k : R Unit} (h1 : Ind m) (h2 : Ind k) : Ind (catchThrown m k) := by
  intro e s
  unfold Cs.Raft.catchThrown
  rw [h1 e s]
  rcases m s with ⟨a | a, s'⟩
  · cases a with
    | thrown => exact h2 e s'
    | _ => rfl
  · rfl

/-- Take a handler apart. -/
macro "ind" "using" ls:term,* : tactic => `(tactic|
  repeat' first
  | with_reducible assumption
  $[| with_reducible apply $ls]*
  | with_reducible exact in_pure _
  | with_reducible exact in_throw _
  | with_reducible apply in_getBind
  | with_reducible apply in_modify
  | with_reducible apply in_bind
  | with_reducible apply in_ite
  | with_reducible apply in_forEach
  | with_reducible apply in_catch
  | with_reducible intro _
  | rfl
  | split)

theorem in_emit (e : Eff) : Ind (emit e) := in_modify fun _ _ => rfl
theorem in_modPeer (r : PeerRef) (f : Peer → Peer) : Ind (modPeer r f) := by
  intro e s
  cases r <;> rfl

theorem in_die {α : Type} (c : Int) : Ind (die c : R α) := by
  unfold die
  ind using in_emit, in_modPeer
theorem in_saveState : Ind saveState := by
  unfold saveState
  ind using in_emit, in_modPeer
theorem in_getPeer (r : PeerRef) : Ind (getPeer r) := by
  unfold getPeer
  ind using in_emit, in_modPeer, in_die
theorem in_peerIds : Ind peerIds := by
  unfold peerIds
  ind using in_emit, in_modPeer
theorem in_termAt (i : Nat) : Ind (termAt i) := by
  unfold termAt
  ind using in_emit, in_modPeer, in_die
theorem in_termForLog (i : Nat) : Ind (termForLog i) := by
  unfold termForLog
  ind using in_emit, in_modPeer, in_die, in_termAt
theorem in_chooseSnap (r : PeerRef) (i : Nat) : Ind (chooseSnap r i) := by
  unfold chooseSnap
  ind using in_emit, in_modPeer, in_die, in_getPeer
theorem in_createSync (r : PeerRef) (i t c : Nat) : Ind (createSyncSnapshotReq r i t c) := by
  unfold createSyncSnapshotReq
  ind using in_emit, in_modPeer, in_die, in_getPeer, in_chooseSnap
theorem in_entriesFrom (i : Nat) : Ind (entriesFrom i) := by
  unfold entriesFrom
  ind using in_emit, in_modPeer, in_die
theorem in_appendReqFrom (r : PeerRef) (i : Nat) : Ind (appendReqFrom r i) := by
  unfold appendReqFrom
  ind using in_emit, in_modPeer, in_termForLog, in_entriesFrom, in_getPeer
theorem in_createAppendReq (r : PeerRef) : Ind (createAppendReq r) := by
  unfold createAppendReq
  ind using in_emit, in_modPeer, in_die, in_getPeer, in_createSync, in_appendReqFrom
theorem in_requestAppend (r : PeerRef) : Ind (requestAppend r) := by
  unfold requestAppend
  ind using in_emit, in_modPeer, in_getPeer, in_createAppendReq
theorem in_commitNotify (id : Int) : Ind (commitNotify id) := by
  unfold commitNotify
  ind using in_emit, in_modPeer, in_requestAppend
theorem in_requestAppendTo (id : Int) : Ind (requestAppendTo id) := by
  unfold requestAppendTo
  ind using in_emit, in_modPeer, in_requestAppend
theorem in_askVote (ty : MsgType) (id : Int) : Ind (askVote ty id) := by
  unfold askVote
  ind using in_emit, in_modPeer, in_termForLog
theorem in_entryAt (i : Nat) : Ind (entryAt i) := by
  unfold entryAt
  ind using in_emit, in_modPeer, in_die
theorem in_entryToApply (i : Nat) : Ind (entryToApply i) := by
  unfold entryToApply
  ind using in_emit, in_modPeer, in_die
theorem in_restart : Ind restartElectionTimer := by
  unfold restartElectionTimer
  ind using in_emit, in_modPeer
theorem in_stop : Ind stopElectionTimer := by
  unfold stopElectionTimer
  ind using in_emit, in_modPeer
theorem in_enableHb (r : PeerRef) : Ind (enableHb r) := by
  unfold enableHb
  ind using in_emit, in_modPeer
theorem in_leaderPeer (id : Int) : Ind (leaderPeer id) := by
  unfold leaderPeer
  ind using in_emit, in_modPeer, in_enableHb
theorem in_becomeFollower : Ind becomeFollower := by
  unfold becomeFollower
  ind using in_emit, in_restart
theorem in_commit (n : Nat) : Ind (commit n) := by
  unfold commit
  ind using in_emit, in_modPeer, in_peerIds, in_commitNotify
theorem in_requestAppendAll : Ind requestAppendAll := by
  unfold requestAppendAll
  ind using in_emit, in_modPeer, in_commit, in_peerIds, in_requestAppendTo
theorem in_logAppend (e : Entry) : Ind (logAppend e) := by
  unfold logAppend
  ind using in_emit, in_modPeer
theorem in_logWriteAt (i : Nat) (e : Entry) : Ind (logWriteAt i e) := by
  unfold logWriteAt
  ind using in_emit, in_modPeer
theorem in_logApplyPack (i : Nat) (es : List Entry) : Ind (logApplyPack i es) := by
  unfold logApplyPack
  ind using in_emit, in_modPeer
theorem in_logCompact (i : Nat) : Ind (logCompact i) := by
  unfold logCompact
  ind using in_emit, in_modPeer
theorem in_initialConf : Ind initialConf := by
  unfold initialConf
  ind using in_emit, in_modPeer, in_logAppend
theorem in_becomeLeader : Ind becomeLeader := by
  unfold becomeLeader
  ind using in_emit, in_modPeer, in_peerIds, in_leaderPeer, in_initialConf, in_requestAppendAll, in_stop
theorem in_updateTerm (t : Nat) : Ind (updateTerm t) := by
  unfold updateTerm
  ind using in_emit, in_modPeer, in_saveState, in_becomeFollower
theorem in_voteSelf : Ind voteSelf := by
  unfold voteSelf
  ind using in_emit, in_modPeer, in_saveState
theorem in_askForVotes : Ind askForVotes := by
  unfold askForVotes
  ind using in_emit, in_modPeer, in_becomeLeader, in_peerIds, in_askVote
theorem in_rearm : Ind rearm := by
  unfold rearm
  ind using in_emit, in_modPeer, in_restart
theorem in_startTerm : Ind startTerm := by
  unfold startTerm
  ind using in_emit, in_modPeer, in_saveState
theorem in_becomeCandidate : Ind becomeCandidate := by
  unfold becomeCandidate requestVote
  ind using in_emit, in_modPeer, in_startTerm, in_voteSelf, in_askForVotes, in_rearm
theorem in_requestPrevote : Ind requestPrevote := by
  unfold requestPrevote
  ind using in_emit, in_modPeer, in_becomeCandidate, in_peerIds, in_askVote
theorem in_leaveConfig : Ind leaveConfig := by
  unfold leaveConfig
  ind using in_emit, in_modPeer
theorem in_handleElectionTimeout : Ind handleElectionTimeout := by
  unfold handleElectionTimeout
  ind using in_emit, in_modPeer, in_leaveConfig, in_die, in_restart, in_requestPrevote, in_becomeCandidate
theorem in_handleHbTimeout (r : PeerRef) : Ind (handleHbTimeout r) := by
  unfold handleHbTimeout
  ind using in_emit, in_modPeer, in_requestAppend
theorem in_skipSame : ∀ (es : List Entry) (i : Nat), Ind (skipSame i es)
  | [], _ => in_pure _
  | e :: es, i => by
    have ih := in_skipSame es
    unfold skipSame
    ind using in_termAt, ih
theorem in_rollbackOld (i : Nat) : Ind (rollbackOld i) := by
  unfold rollbackOld
  ind using in_emit, in_modPeer, in_entryAt
theorem in_noteNew (i : Nat) (e : Entry) : Ind (noteNew i e) := by
  unfold noteNew
  ind using in_emit, in_modPeer
theorem in_overwriteOld : ∀ (es : List Entry) (i : Nat), Ind (overwriteOld i es)
  | [], _ => in_pure _
  | e :: es, i => by
    have ih := in_overwriteOld es
    unfold overwriteOld
    ind using in_rollbackOld, in_logWriteAt, in_noteNew, ih
theorem in_appendNew : ∀ (es : List Entry), Ind (appendNew es)
  | [] => in_pure _
  | e :: es => by
    have ih := in_appendNew es
    unfold appendNew
    ind using in_logAppend, in_noteNew, ih
theorem in_storeEntries (r : Req) : Ind (storeEntries r) := by
  unfold storeEntries
  ind using in_emit, in_modPeer, in_skipSame, in_overwriteOld, in_appendNew
theorem in_hearLeader (r : Req) : Ind (hearLeader r) := by
  unfold hearLeader
  ind using in_emit, in_modPeer, in_becomeFollower, in_die, in_restart
theorem in_logOkay (r : Req) : Ind (logOkay r) := by
  unfold logOkay
  ind using in_emit, in_modPeer, in_termForLog
theorem in_handleAppendEntries (r : Req) : Ind (handleAppendEntries r) := by
  unfold handleAppendEntries
  ind using in_emit, in_modPeer, in_hearLeader, in_logOkay, in_storeEntries, in_commit
theorem in_handleVoteReq (r : Req) : Ind (handleVoteReq r) := by
  unfold handleVoteReq
  ind using in_emit, in_modPeer, in_saveState
theorem in_handlePrevoteReq (r : Req) : Ind (handlePrevoteReq r) := by
  unfold handlePrevoteReq
  ind using in_emit, in_modPeer
theorem in_appendClient : ∀ (es : List Entry), Ind (appendClient es)
  | [] => in_pure _
  | e :: es => by
    have ih := in_appendClient es
    unfold appendClient
    ind using in_logAppend, in_emit, ih
theorem in_addPeer (c : SrvCfg) : Ind (addPeer c) := by
  have h0 : ∀ (e : Int) (s : Srv), (if ((s.el e).findPeer c.id).isSome then s.el e else
      { s.el e with peers := (s.el e).peers ++
        [{ cfg := c, nextIdx := (s.el e).log.next, hbInterval := (s.el e).params.hbInterval }] }) =
      (if (s.findPeer c.id).isSome then s else
      { s with peers := s.peers ++ [{ cfg := c, nextIdx := s.log.next, hbInterval := s.params.hbInterval }] }).el e := by
    intro e s
    show (if (s.findPeer c.id).isSome then s.el e else _) = _
    split <;> rfl
  unfold addPeer
  ind using (in_modify h0), in_emit, in_modPeer, in_enableHb
theorem in_removePeer (c : Config) (i : Int) : Ind (removePeer c i) := by
  unfold removePeer
  ind using in_emit, in_modPeer, in_die
theorem in_reconfigure (c : Config) : Ind (reconfigure c) := by
  unfold reconfigure
  ind using in_emit, in_modPeer, in_addPeer, in_removePeer
theorem in_handleJoin (r : Req) : Ind (handleJoin r) := by
  unfold handleJoin
  ind using in_emit, in_modPeer, in_saveState, in_reconfigure
theorem in_installSnapshot (q : Snap) : Ind (installSnapshot q) := by
  unfold installSnapshot
  ind using in_emit, in_modPeer, in_die, in_logCompact, in_stop, in_reconfigure, in_saveState, in_restart
theorem in_handleSnapshotSync (q : SnpSync) : Ind (handleSnapshotSync q) := by
  unfold handleSnapshotSync
  ind using in_emit, in_modPeer, in_die, in_installSnapshot
theorem in_hearSnapshotLeader (r : Req) : Ind (hearSnapshotLeader r) := by
  unfold hearSnapshotLeader
  ind using in_emit, in_modPeer, in_becomeFollower, in_die, in_restart
theorem in_handleInstallSnapshot (r : Req) : Ind (handleInstallSnapshot r) := by
  unfold handleInstallSnapshot
  ind using in_emit, in_modPeer, in_hearSnapshotLeader, in_handleSnapshotSync
theorem in_handleRmSrv (r : Req) : Ind (handleRmSrv r) := by
  unfold handleRmSrv
  ind using in_emit, in_modPeer
theorem in_inviteSrv : Ind inviteSrv := by
  unfold inviteSrv
  ind using in_emit, in_modPeer, in_getPeer
theorem in_handleAddSrv (r : Req) : Ind (handleAddSrv r) := by
  unfold handleAddSrv
  ind using in_emit, in_modPeer, in_inviteSrv
theorem in_handleLogSync (r : Req) : Ind (handleLogSync r) := by
  unfold handleLogSync
  ind using in_emit, in_modPeer, in_logApplyPack, in_commit
theorem in_handleLeave (r : Req) : Ind (handleLeave r) := by
  unfold handleLeave
  ind using in_emit, in_modPeer
theorem in_hearTerm (r : Req) : Ind (hearTerm r) := by
  unfold hearTerm
  ind using in_emit, in_modPeer, in_updateTerm
theorem in_acceptedResp (r : Resp) : Ind (acceptedResp r) := by
  unfold acceptedResp
  ind using in_emit, in_modPeer, in_commit, in_getPeer
theorem in_refusedResp (r : Resp) : Ind (refusedResp r) := by
  unfold refusedResp
  ind using in_emit, in_modPeer
theorem in_handleAppendResp (r : Resp) : Ind (handleAppendResp r) := by
  unfold handleAppendResp
  ind using in_emit, in_modPeer, in_acceptedResp, in_refusedResp, in_requestAppendTo
theorem in_acceptedSnpResp (r : Resp) : Ind (acceptedSnpResp r) := by
  unfold acceptedSnpResp
  ind using in_emit, in_modPeer, in_getPeer
theorem in_handleSnpResp (r : Resp) : Ind (handleSnpResp r) := by
  unfold handleSnpResp
  ind using in_emit, in_modPeer, in_acceptedSnpResp, in_requestAppendTo
theorem in_handleVotingResp (r : Resp) : Ind (handleVotingResp r) := by
  unfold handleVotingResp
  ind using in_emit, in_modPeer, in_becomeLeader
theorem in_dispatchResp (r : Resp) : Ind (dispatchResp r) := by
  unfold dispatchResp
  ind using in_emit, in_modPeer, in_handleVotingResp, in_handleAppendResp, in_handleSnpResp, in_die
theorem in_handlePeerResp (r : Resp) : Ind (handlePeerResp r) := by
  unfold handlePeerResp
  ind using in_emit, in_modPeer, in_updateTerm, in_dispatchResp
theorem in_handlePrevoteResp (r : Resp) : Ind (handlePrevoteResp r) := by
  unfold handlePrevoteResp
  ind using in_emit, in_modPeer, in_becomeCandidate, in_restart
theorem in_addToConfig : Ind addToConfig := by
  unfold addToConfig
  ind using in_emit, in_modPeer, in_logAppend, in_requestAppendAll
theorem in_sendSync (r : PeerRef) (i t c : Nat) :
    Ind (createSyncSnapshotReq r i t c >>= fun q => emit (.send q)) := by
  ind using in_emit, in_modPeer, in_createSync
theorem in_syncLogToNewSrv (i : Nat) : Ind (syncLogToNewSrv i) := by
  unfold syncLogToNewSrv
  ind using in_emit, in_modPeer, in_addToConfig, in_sendSync, in_getPeer
theorem in_rmSrvFromCluster (i : Int) : Ind (rmSrvFromCluster i) := by
  unfold rmSrvFromCluster
  ind using in_emit, in_modPeer, in_logAppend, in_requestAppendAll
theorem in_handleExtSnpResp (r : Resp) : Ind (handleExtSnpResp r) := by
  unfold handleExtSnpResp
  ind using in_emit, in_modPeer, in_die, in_getPeer, in_syncLogToNewSrv
theorem in_handleExtResp (r : Resp) : Ind (handleExtResp r) := by
  unfold handleExtResp
  ind using in_emit, in_modPeer, in_syncLogToNewSrv, in_rmSrvFromCluster, in_handleExtSnpResp, in_handlePrevoteResp, in_die
theorem in_forceRemove (i : Int) : Ind (forceRemove i) := by
  unfold forceRemove
  ind using in_emit, in_modPeer, in_rmSrvFromCluster
theorem in_handleExtErr (r : Req) : Ind (handleExtErr r) := by
  unfold handleExtErr
  ind using in_emit, in_modPeer, in_forceRemove
theorem in_rpcResult (p : PeerRef) (ty : MsgType) : Ind (rpcResult p ty true) := by
  unfold rpcResult
  ind using in_emit, in_modPeer
theorem in_rpcError (p : PeerRef) (ty : MsgType) : Ind (rpcResult p ty false) := by
  unfold rpcResult
  ind using in_emit, in_modPeer
theorem in_retryReq (r : Req) : Ind (retryReq r) := by
  unfold retryReq
  ind using in_emit, in_modPeer
theorem in_commitConf (c : Config) : Ind (commitConf c) := by
  unfold commitConf
  ind using in_emit, in_modPeer, in_reconfigure
theorem in_findConf (i : Nat) : ∀ (n : Nat) (c : Config), Ind (findConf i n c)
  | 0, _ => in_throw _
  | n + 1, c => by
    have ih := in_findConf i n
    unfold findConf
    ind using in_entryAt, ih
theorem in_confForSnap (i : Nat) : Ind (confForSnap i) := by
  unfold confForSnap
  ind using in_emit, in_modPeer, in_findConf, in_die
theorem in_startSnapshot (i : Nat) : Ind (startSnapshot i) := by
  unfold startSnapshot
  ind using in_emit, in_modPeer, in_confForSnap, in_termAt
theorem in_snapshotAndCompact (i : Nat) : Ind (snapshotAndCompact i) := by
  unfold snapshotAndCompact
  ind using in_emit, in_modPeer, in_startSnapshot
theorem in_keepSnap (q : Snap) : Ind (keepSnap q) := by
  unfold keepSnap
  ind using in_emit, in_modPeer
theorem in_onSnapshotCompleted (q : Snap) (ok : Bool) : Ind (onSnapshotCompleted q ok) := by
  unfold onSnapshotCompleted
  ind using in_emit, in_modPeer, in_logCompact
theorem in_applyEntry (i : Nat) (e : Entry) : Ind (applyEntry i e) := by
  unfold applyEntry
  ind using in_emit, in_modPeer, in_commitConf
theorem in_applyOne : Ind applyOne := by
  unfold applyOne
  ind using in_emit, in_modPeer, in_entryToApply, in_applyEntry, in_snapshotAndCompact

/-! ## Whole inputs -/

/-- Inputs that make a server call `is_leader`: a client wants something appended, or `replicate_log` is called. -/
def Input.asks : Input → Bool
  | .req r => r.type = .clientReq
  | .replicate _ => true
  | _ => false

theorem in_dispatch (r : Req) (h : r.type ≠ .clientReq) : Ind (dispatch r) := by
  unfold dispatch handleExtended
  split
  case h_3 => exact absurd (by assumption) h
  all_goals ind using in_handleAppendEntries, in_handleVoteReq, in_handleAddSrv, in_handleRmSrv,
    in_handleLogSync, in_handleLeave, in_handlePrevoteReq, in_die, in_handleJoin, in_handleInstallSnapshot

/-- All other inputs are covered. -/
theorem in_run (x : Input) (h : x.asks = false) : Ind x.run := by
  cases x with
  | req r =>
    show Ind (processReq r >>= fun resp => emit (.reply resp))
    unfold processReq
    exact in_bind (in_bind (in_hearTerm r) fun _ => in_dispatch r (of_decide_eq_false h)) fun q => in_emit _
  | peerResp ty r => exact in_bind (in_rpcResult _ _) fun _ => in_handlePeerResp r
  | extResp p ty r => exact in_bind (in_rpcResult _ _) fun _ => in_handleExtResp r
  | peerErr r => exact in_rpcError _ _
  | extErr p r => exact in_bind (in_rpcError _ _) fun _ => in_handleExtErr r
  | retry r => exact in_retryReq r
  | electionTimeout => exact in_handleElectionTimeout
  | hbTimeout id => exact in_handleHbTimeout _
  | apply => exact in_applyOne
  | snapDone q ok =>
    exact in_ite (in_bind (in_keepSnap q) fun _ => in_onSnapshotCompleted q true) (in_onSnapshotCompleted q false)
  | replicate d => cases h
  | tick n => exact in_modify fun _ _ => rfl

end Cs.Raft
