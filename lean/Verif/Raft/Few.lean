import Verif.Raft.Pres
import Verif.Raft.Frame
import Verif.Raft.Spec

/-!
# How many entries a request has

`Few`: no request has more entries than the parameter says.
-/

set_option linter.unusedSectionVars false

namespace Cs.Raft
open Cs

/-- The numbers of entries and of entries in a log pack that the parameters allow. -/
def Req.Few (p : Params) (r : Req) : Prop :=
  r.entries.length ≤ (if r.type = .appendReq then p.maxAppend else 1) ∧
    (0 ≤ p.logSyncBatch → 0 ≤ p.logSyncGap → r.pack.length ≤ p.logSyncBatch.toNat)

/-- See above. -/
def Few (s s' : Srv) : Prop :=
  s'.params = s.params ∧ ∃ es, s'.trace = s.trace ++ es ∧ ∀ r, .send r ∈ es → r.Few s.params

theorem fewPo : PO Few := by
  refine ⟨fun s => ⟨rfl, [], by simp, by simp⟩, ?_⟩
  rintro a b c ⟨p1, e1, t1, h1⟩ ⟨p2, e2, t2, h2⟩
  refine ⟨p2.trans p1, e1 ++ e2, by rw [t2, t1, List.append_assoc], fun r hr => ?_⟩
  rcases List.mem_append.1 hr with hr | hr
  · exact h1 r hr
  · rw [← p1]; exact h2 r hr

/-- Effects that are not requests, or requests with one entry at most. -/
def Eff.short : Eff → Bool
  | .send r => (r.entries.isEmpty || (r.type != .appendReq && decide (r.entries.length ≤ 1))) && r.pack.isEmpty
  | _ => true

theorem fw_same {s s' : Srv} (h : s'.params = s.params) (h2 : s'.trace = s.trace) : Few s s' := ⟨h, [], by rw [h2, List.append_nil], by simp⟩
theorem fw_mod {f : Srv → Srv} (h : ∀ s, (f s).params = s.params ∧ (f s).trace = s.trace) : Pres Few (modify f : R PUnit) :=
  fun s => fw_same (h s).1 (h s).2
theorem fw_send {s : Srv} {r : Req} (h : r.Few s.params) : Few s (emit (.send r) s).2 := ⟨rfl, [.send r], rfl, fun q hq => by
  cases List.mem_singleton.1 hq; exact h⟩
theorem fw_emit (e : Eff) (h : e.short = true) : Pres Few (emit e) := fun s => ⟨rfl, [e], rfl, fun r hr => by
  rw [← List.mem_singleton.1 hr] at h
  simp only [Eff.short, Bool.and_eq_true, Bool.or_eq_true, bne_iff_ne, decide_eq_true_eq, List.isEmpty_iff] at h
  obtain ⟨h1 | ⟨h1, h2⟩, h3⟩ := h
  · exact ⟨by rw [h1]; exact Nat.zero_le _, fun _ _ => by rw [h3]; exact Nat.zero_le _⟩
  · exact ⟨by rw [if_neg h1]; exact h2, fun _ _ => by rw [h3]; exact Nat.zero_le _⟩⟩
theorem fw_modPeer (r : PeerRef) (f : Peer → Peer) : Pres Few (modPeer r f) := fun s => by
  cases r <;> exact fw_same rfl rfl
/-- A request is made and sent. -/
theorem fw_sendOf {β : Type} {m : R Req} (h : Pres Few m) (hv : ∀ s, Gives (fun r => r.Few s.params) (m s).1) {k : R β} (hk : Pres Few k) :
    Pres Few (m >>= fun r => emit (.send r) >>= fun _ => k) := by
  intro s
  have h1 := h s
  have h2 := hv s
  rcases hc : m s with ⟨e | r, s'⟩
  · rw [run_bind_err hc]; rw [hc] at h1; exact h1
  · rw [run_bind_ok hc]
    rw [hc] at h1 h2
    have h3 := h2 r rfl
    rw [← h1.1] at h3
    exact fewPo.trans h1 (fewPo.trans (fw_send h3) (hk _))

theorem sends_few {s : Srv} {r : Req} (h : Sends s r) : r.Few s.params := by
  cases h with
  | append dst last t ha hb hc =>
    refine ⟨?_, fun _ _ => Nat.zero_le _⟩
    show (s.behind last).length ≤ s.params.maxAppend
    unfold Srv.behind
    split
    · exact Nat.zero_le _
    · have := range_length s.log (last + 1) (min s.log.next (last + 1 + s.params.maxAppend))
      omega
  | snapshot dst last snp q ha hb => exact ⟨Nat.le_refl 1, fun _ _ => Nat.zero_le _⟩
  | vote ty dst t ha hb => exact ⟨Nat.zero_le _, fun _ _ => Nat.zero_le _⟩

/-- The primitive updates. -/
macro "fw" : tactic => `(tactic| first | rfl | exact fw_mod fun _ => ⟨rfl, rfl⟩ | exact fw_mod fun _ => (by split <;> exact ⟨rfl, rfl⟩) | exact fw_same rfl rfl | (intro _; exact fw_same rfl rfl) | skip)

theorem fw_die {α : Type} (c : Int) : Pres Few (die c : R α) := by
  unfold die
  pres fewPo using fw_emit
  all_goals fw
theorem fw_saveState  : Pres Few (saveState) := by
  unfold saveState
  pres fewPo using fw_emit
  all_goals fw
theorem fw_getPeer (r : PeerRef) : Pres Few (getPeer r) := by
  unfold getPeer
  pres fewPo using fw_emit
  all_goals fw
theorem fw_peerIds  : Pres Few (peerIds) := by
  unfold peerIds
  pres fewPo using fw_emit
  all_goals fw
theorem fw_logAppend (e : Entry) : Pres Few (logAppend e) := by
  unfold logAppend
  pres fewPo using fw_emit
  all_goals fw
theorem fw_logWriteAt (i : Nat) (e : Entry) : Pres Few (logWriteAt i e) := by
  unfold logWriteAt
  pres fewPo using fw_emit
  all_goals fw
theorem fw_termAt (i : Nat) : Pres Few (termAt i) := by
  unfold termAt
  pres fewPo using fw_emit
  all_goals fw
theorem fw_entryAt (i : Nat) : Pres Few (entryAt i) := by
  unfold entryAt
  pres fewPo using fw_emit
  all_goals fw
theorem fw_entryToApply (i : Nat) : Pres Few (entryToApply i) := by
  unfold entryToApply
  pres fewPo using fw_die
  all_goals fw
theorem fw_logApplyPack (i : Nat) (es : List Entry) : Pres Few (logApplyPack i es) := by
  unfold logApplyPack
  pres fewPo using fw_emit
  all_goals fw
theorem fw_logCompact (i : Nat) : Pres Few (logCompact i) := by
  unfold logCompact
  pres fewPo using fw_emit
  all_goals fw
theorem fw_termForLog (i : Nat) : Pres Few (termForLog i) := by
  unfold termForLog
  pres fewPo using fw_die, fw_termAt
  all_goals fw
theorem fw_restartElectionTimer  : Pres Few (restartElectionTimer) := by
  unfold restartElectionTimer
  pres fewPo using fw_emit
  all_goals fw
theorem fw_stopElectionTimer  : Pres Few (stopElectionTimer) := by
  unfold stopElectionTimer
  pres fewPo using fw_emit
  all_goals fw
theorem fw_enableHb (r : PeerRef) : Pres Few (enableHb r) := by
  unfold enableHb
  pres fewPo using fw_modPeer
  all_goals fw
theorem fw_becomeFollower  : Pres Few (becomeFollower) := by
  unfold becomeFollower
  pres fewPo using fw_emit, fw_restartElectionTimer
  all_goals fw
theorem fw_updateTerm (term : Nat) : Pres Few (updateTerm term) := by
  unfold updateTerm
  pres fewPo using fw_saveState, fw_becomeFollower
  all_goals fw
theorem fw_chooseSnap (r : PeerRef) (lastIdx : Nat) : Pres Few (chooseSnap r lastIdx) := by
  unfold chooseSnap
  pres fewPo using fw_die, fw_modPeer, fw_getPeer
  all_goals fw
theorem fw_createSyncSnapshotReq (r : PeerRef) (lastIdx term commitIdx : Nat) : Pres Few (createSyncSnapshotReq r lastIdx term commitIdx) := by
  unfold createSyncSnapshotReq
  pres fewPo using fw_die, fw_getPeer, fw_chooseSnap
  all_goals fw
theorem fw_entriesFrom (last : Nat) : Pres Few (entriesFrom last) := by
  unfold entriesFrom
  pres fewPo using fw_emit
  all_goals fw
theorem fw_appendReqFrom (r : PeerRef) (last : Nat) : Pres Few (appendReqFrom r last) := by
  unfold appendReqFrom
  pres fewPo using fw_getPeer, fw_termForLog, fw_entriesFrom
  all_goals fw
theorem fw_createAppendReq (r : PeerRef) : Pres Few (createAppendReq r) := by
  unfold createAppendReq
  pres fewPo using fw_die, fw_modPeer, fw_getPeer, fw_createSyncSnapshotReq, fw_appendReqFrom
  all_goals fw
theorem fw_requestAppend (r : PeerRef) : Pres Few (requestAppend r) := by
  unfold requestAppend
  refine pres_bind fewPo (fw_getPeer _) fun p => pres_ite (pres_pure fewPo _) (pres_bind fewPo (fw_modPeer _ _) fun _ => ?_)
  exact fw_sendOf (fw_createAppendReq r) (fun s q hq => sends_few ((createAppendReq_frame (fun _ => True) r s).2 q hq).1) (pres_pure fewPo _)
theorem fw_commitNotify (id : Int) : Pres Few (commitNotify id) := by
  unfold commitNotify
  pres fewPo using fw_modPeer, fw_requestAppend
  all_goals fw
theorem fw_commit (target : Nat) : Pres Few (commit target) := by
  unfold commit
  pres fewPo using fw_emit, fw_peerIds, fw_commitNotify
  all_goals fw
theorem fw_requestAppendTo (id : Int) : Pres Few (requestAppendTo id) := by
  unfold requestAppendTo
  pres fewPo using fw_requestAppend
  all_goals fw
theorem fw_requestAppendAll  : Pres Few (requestAppendAll) := by
  unfold requestAppendAll
  pres fewPo using fw_peerIds, fw_commit, fw_requestAppendTo
  all_goals fw
theorem fw_leaderPeer (id : Int) : Pres Few (leaderPeer id) := by
  unfold leaderPeer
  pres fewPo using fw_modPeer, fw_enableHb
  all_goals fw
theorem fw_initialConf  : Pres Few (initialConf) := by
  unfold initialConf
  pres fewPo using fw_logAppend
  all_goals fw
theorem fw_becomeLeader  : Pres Few (becomeLeader) := by
  unfold becomeLeader
  pres fewPo using fw_emit, fw_peerIds, fw_stopElectionTimer, fw_requestAppendAll, fw_leaderPeer, fw_initialConf
  all_goals fw
theorem fw_askVote (ty : MsgType) (id : Int) : Pres Few (askVote ty id) := by
  unfold askVote
  pres fewPo using fw_emit, fw_termForLog
  all_goals fw
theorem fw_voteSelf  : Pres Few (voteSelf) := by
  unfold voteSelf
  pres fewPo using fw_saveState
  all_goals fw
theorem fw_askForVotes  : Pres Few (askForVotes) := by
  unfold askForVotes
  pres fewPo using fw_peerIds, fw_becomeLeader, fw_askVote
  all_goals fw
theorem fw_requestVote  : Pres Few (requestVote) := by
  unfold requestVote
  pres fewPo using fw_voteSelf, fw_askForVotes
  all_goals fw
theorem fw_startTerm  : Pres Few (startTerm) := by
  unfold startTerm
  pres fewPo using fw_saveState
  all_goals fw
theorem fw_rearm  : Pres Few (rearm) := by
  unfold rearm
  pres fewPo using fw_restartElectionTimer
  all_goals fw
theorem fw_becomeCandidate  : Pres Few (becomeCandidate) := by
  unfold becomeCandidate
  pres fewPo using fw_requestVote, fw_startTerm, fw_rearm
  all_goals fw
theorem fw_requestPrevote  : Pres Few (requestPrevote) := by
  unfold requestPrevote
  pres fewPo using fw_peerIds, fw_askVote, fw_becomeCandidate
  all_goals fw
theorem fw_leaveConfig  : Pres Few (leaveConfig) := by
  unfold leaveConfig
  pres fewPo using fw_emit
  all_goals fw
theorem fw_handleElectionTimeout  : Pres Few (handleElectionTimeout) := by
  unfold handleElectionTimeout
  pres fewPo using fw_die, fw_restartElectionTimer, fw_becomeCandidate, fw_requestPrevote, fw_leaveConfig
  all_goals fw
theorem fw_handleHbTimeout (r : PeerRef) : Pres Few (handleHbTimeout r) := by
  unfold handleHbTimeout
  pres fewPo using fw_modPeer, fw_requestAppend
  all_goals fw
theorem fw_skipSame (idx : Nat) (es : List Entry) : Pres Few (skipSame idx es) := by
  induction es generalizing idx with
  | nil => exact pres_pure fewPo _
  | cons e es ih =>
    unfold skipSame
    pres fewPo using fw_termAt, ih
    all_goals fw
theorem fw_rollbackOld (idx : Nat) : Pres Few (rollbackOld idx) := by
  unfold rollbackOld
  pres fewPo using fw_emit, fw_entryAt
  all_goals fw
theorem fw_noteNew (idx : Nat) (e : Entry) : Pres Few (noteNew idx e) := by
  unfold noteNew
  pres fewPo using fw_emit
  all_goals fw
theorem fw_overwriteOld (idx : Nat) (es : List Entry) : Pres Few (overwriteOld idx es) := by
  induction es generalizing idx with
  | nil => exact pres_pure fewPo _
  | cons e es ih =>
    unfold overwriteOld
    pres fewPo using fw_rollbackOld, fw_noteNew, fw_logWriteAt, fw_emit, ih
    all_goals fw
theorem fw_appendNew (es : List Entry) : Pres Few (appendNew es) := by
  induction es with
  | nil => exact pres_pure fewPo _
  | cons e es ih =>
    unfold appendNew
    pres fewPo using fw_logAppend, fw_noteNew, fw_emit, ih
    all_goals fw
theorem fw_storeEntries (req : Req) : Pres Few (storeEntries req) := by
  unfold storeEntries
  pres fewPo using fw_skipSame, fw_overwriteOld, fw_appendNew
  all_goals fw
theorem fw_hearLeader (req : Req) : Pres Few (hearLeader req) := by
  unfold hearLeader
  pres fewPo using fw_die, fw_restartElectionTimer, fw_becomeFollower
  all_goals fw
theorem fw_logOkay (req : Req) : Pres Few (logOkay req) := by
  unfold logOkay
  pres fewPo using fw_termForLog
  all_goals fw
theorem fw_handleAppendEntries (req : Req) : Pres Few (handleAppendEntries req) := by
  unfold handleAppendEntries
  pres fewPo using fw_commit, fw_storeEntries, fw_hearLeader, fw_logOkay
  all_goals fw
theorem fw_handleVoteReq (req : Req) : Pres Few (handleVoteReq req) := by
  unfold handleVoteReq
  pres fewPo using fw_saveState
  all_goals fw
theorem fw_handlePrevoteReq (req : Req) : Pres Few (handlePrevoteReq req) := by
  unfold handlePrevoteReq
  pres fewPo using fw_emit
  all_goals fw
theorem fw_isLeader  : Pres Few (isLeader) := by
  unfold isLeader
  pres fewPo using fw_emit
  all_goals fw
theorem fw_appendClient (es : List Entry) : Pres Few (appendClient es) := by
  induction es with
  | nil => exact pres_pure fewPo _
  | cons e es ih =>
    unfold appendClient
    pres fewPo using fw_logAppend, fw_noteNew, fw_emit, ih
    all_goals fw
theorem fw_handleCliReq (req : Req) : Pres Few (handleCliReq req) := by
  unfold handleCliReq
  pres fewPo using fw_requestAppendAll, fw_isLeader, fw_appendClient
  all_goals fw
theorem fw_addPeer (c : SrvCfg) : Pres Few (addPeer c) := by
  unfold addPeer
  pres fewPo using fw_modPeer, fw_enableHb
  all_goals fw
theorem fw_removePeer (c : Config) (id : Int) : Pres Few (removePeer c id) := by
  unfold removePeer
  pres fewPo using fw_emit, fw_die
  all_goals fw
theorem fw_reconfigure (c : Config) : Pres Few (reconfigure c) := by
  unfold reconfigure
  pres fewPo using fw_addPeer, fw_removePeer
  all_goals fw
theorem fw_installSnapshot (snp : Snap) : Pres Few (installSnapshot snp) := by
  unfold installSnapshot
  pres fewPo using fw_emit, fw_die, fw_saveState, fw_logCompact, fw_restartElectionTimer, fw_stopElectionTimer, fw_reconfigure
  all_goals fw
theorem fw_handleSnapshotSync (q : SnpSync) : Pres Few (handleSnapshotSync q) := by
  unfold handleSnapshotSync
  pres fewPo using fw_emit, fw_die, fw_installSnapshot
  all_goals fw
theorem fw_hearSnapshotLeader (req : Req) : Pres Few (hearSnapshotLeader req) := by
  unfold hearSnapshotLeader
  pres fewPo using fw_die, fw_restartElectionTimer, fw_becomeFollower
  all_goals fw
theorem fw_handleInstallSnapshot (req : Req) : Pres Few (handleInstallSnapshot req) := by
  unfold handleInstallSnapshot
  pres fewPo using fw_handleSnapshotSync, fw_hearSnapshotLeader
  all_goals fw
theorem fw_handleRmSrv (req : Req) : Pres Few (handleRmSrv req) := by
  unfold handleRmSrv
  pres fewPo using fw_emit
  all_goals fw
theorem fw_inviteSrv  : Pres Few (inviteSrv) := by
  unfold inviteSrv
  pres fewPo using fw_emit, fw_getPeer
  all_goals fw
theorem fw_handleAddSrv (req : Req) : Pres Few (handleAddSrv req) := by
  unfold handleAddSrv
  pres fewPo using fw_inviteSrv
  all_goals fw
theorem fw_handleLogSync (req : Req) : Pres Few (handleLogSync req) := by
  unfold handleLogSync
  pres fewPo using fw_logApplyPack, fw_commit
  all_goals fw
theorem fw_handleJoin (req : Req) : Pres Few (handleJoin req) := by
  unfold handleJoin
  pres fewPo using fw_saveState, fw_reconfigure
  all_goals fw
theorem fw_handleLeave (req : Req) : Pres Few (handleLeave req) := by
  unfold handleLeave
  pres fewPo using fw_emit
  all_goals fw
theorem fw_hearTerm (req : Req) : Pres Few (hearTerm req) := by
  unfold hearTerm
  pres fewPo using fw_updateTerm
  all_goals fw
theorem fw_acceptedResp (resp : Resp) : Pres Few (acceptedResp resp) := by
  unfold acceptedResp
  pres fewPo using fw_modPeer, fw_getPeer, fw_commit
  all_goals fw
theorem fw_refusedResp (resp : Resp) : Pres Few (refusedResp resp) := by
  unfold refusedResp
  pres fewPo using fw_modPeer
  all_goals fw
theorem fw_handleAppendResp (resp : Resp) : Pres Few (handleAppendResp resp) := by
  unfold handleAppendResp
  pres fewPo using fw_requestAppendTo, fw_acceptedResp, fw_refusedResp
  all_goals fw
theorem fw_acceptedSnpResp (resp : Resp) : Pres Few (acceptedSnpResp resp) := by
  unfold acceptedSnpResp
  pres fewPo using fw_modPeer, fw_getPeer
  all_goals fw
theorem fw_handleSnpResp (resp : Resp) : Pres Few (handleSnpResp resp) := by
  unfold handleSnpResp
  pres fewPo using fw_requestAppendTo, fw_acceptedSnpResp
  all_goals fw
theorem fw_handleVotingResp (resp : Resp) : Pres Few (handleVotingResp resp) := by
  unfold handleVotingResp
  pres fewPo using fw_becomeLeader
  all_goals fw
theorem fw_dispatchResp (resp : Resp) : Pres Few (dispatchResp resp) := by
  unfold dispatchResp
  pres fewPo using fw_die, fw_handleAppendResp, fw_handleSnpResp, fw_handleVotingResp
  all_goals fw
theorem fw_handlePeerResp (resp : Resp) : Pres Few (handlePeerResp resp) := by
  unfold handlePeerResp
  pres fewPo using fw_modPeer, fw_updateTerm, fw_dispatchResp
  all_goals fw
theorem fw_handlePrevoteResp (resp : Resp) : Pres Few (handlePrevoteResp resp) := by
  unfold handlePrevoteResp
  pres fewPo using fw_restartElectionTimer, fw_becomeCandidate
  all_goals fw
theorem fw_addToConfig  : Pres Few (addToConfig) := by
  unfold addToConfig
  pres fewPo using fw_logAppend, fw_requestAppendAll
  all_goals fw
theorem fw_syncLogToNewSrv (i : Nat) : Pres Few (syncLogToNewSrv i) := by
  unfold syncLogToNewSrv
  refine pres_getBind fun s => ?_
  by_cases h1 : toI32 (subU64 s.quickCommit i) < s.params.logSyncGap
  · rw [if_pos h1]; exact fw_addToConfig s
  rw [if_neg h1]
  by_cases h2 : 0 < i ∧ i < s.log.start
  · rw [if_pos h2]
    exact fw_sendOf (k := pure ()) (fw_createSyncSnapshotReq _ _ _ _) (fun s q hq => by
      obtain ⟨dst, snp, y, rfl⟩ := (createSync_frame (fun _ => True) _ _ _ _ s).2 q hq
      exact ⟨Nat.le_refl 1, fun _ _ => Nat.zero_le _⟩) (pres_pure fewPo _) s
  rw [if_neg h2]
  by_cases h3 : i < s.log.start
  · rw [if_pos h3]; exact fewPo.refl s
  rw [if_neg h3]
  rcases hk : packOf s.log i (min (toI32 (subU64 s.quickCommit i)) s.params.logSyncBatch) with _ | es
  · exact fewPo.refl s
  show Few s ((getPeer .joining >>= fun p => emit (.send _)) s).2
  rcases hp : s.peer .joining with _ | p
  · rw [run_bind_err (getPeer_none hp)]; exact fewPo.refl s
  rw [run_bind_ok (getPeer_some hp)]
  refine fw_send ⟨Nat.le_refl 1, fun h0 h4 => Nat.le_trans (packOf_length hk (by omega)) ?_⟩
  omega
theorem fw_rmSrvFromCluster (id : Int) : Pres Few (rmSrvFromCluster id) := by
  unfold rmSrvFromCluster
  pres fewPo using fw_logAppend, fw_requestAppendAll
  all_goals fw
theorem fw_handleExtSnpResp (resp : Resp) : Pres Few (handleExtSnpResp resp) := by
  unfold handleExtSnpResp
  pres fewPo using fw_die, fw_modPeer, fw_getPeer, fw_syncLogToNewSrv
  all_goals fw
theorem fw_handleExtResp (resp : Resp) : Pres Few (handleExtResp resp) := by
  unfold handleExtResp
  pres fewPo using fw_die, fw_modPeer, fw_handlePrevoteResp, fw_syncLogToNewSrv, fw_rmSrvFromCluster, fw_handleExtSnpResp
  all_goals fw
theorem fw_forceRemove (id : Int) : Pres Few (forceRemove id) := by
  unfold forceRemove
  pres fewPo using fw_rmSrvFromCluster
  all_goals fw
theorem fw_handleExtErr (req : Req) : Pres Few (handleExtErr req) := by
  unfold handleExtErr
  pres fewPo using fw_modPeer, fw_forceRemove
  all_goals fw
theorem fw_rpcResult (r : PeerRef) (ty : MsgType) (ok : Bool) : Pres Few (rpcResult r ty ok) := by
  unfold rpcResult
  pres fewPo using fw_modPeer
  all_goals fw
theorem fw_commitConf (c : Config) : Pres Few (commitConf c) := by
  unfold commitConf
  pres fewPo using fw_emit, fw_reconfigure
  all_goals fw
theorem fw_findConf (idx n : Nat) (c : Config) : Pres Few (findConf idx n c) := by
  induction n generalizing c with
  | zero => exact pres_throw fewPo _
  | succ n ih =>
    unfold findConf
    pres fewPo using fw_entryAt, fw_die, ih
    all_goals fw
theorem fw_confForSnap (idx : Nat) : Pres Few (confForSnap idx) := by
  unfold confForSnap
  pres fewPo using fw_die, fw_findConf
  all_goals fw
theorem fw_startSnapshot (idx : Nat) : Pres Few (startSnapshot idx) := by
  unfold startSnapshot
  pres fewPo using fw_emit, fw_termAt, fw_confForSnap
  all_goals fw
theorem fw_snapshotAndCompact (idx : Nat) : Pres Few (snapshotAndCompact idx) := by
  unfold snapshotAndCompact
  pres fewPo using fw_startSnapshot
  all_goals fw
theorem fw_keepSnap (snp : Snap) : Pres Few (keepSnap snp) := by
  unfold keepSnap
  pres fewPo using fw_emit
  all_goals fw
theorem fw_onSnapshotCompleted (snp : Snap) (ok : Bool) : Pres Few (onSnapshotCompleted snp ok) := by
  unfold onSnapshotCompleted
  pres fewPo using fw_logCompact
  all_goals fw
theorem fw_applyEntry (i : Nat) (e : Entry) : Pres Few (applyEntry i e) := by
  unfold applyEntry
  pres fewPo using fw_emit, fw_commitConf
  all_goals fw
theorem fw_applyOne  : Pres Few (applyOne) := by
  unfold applyOne
  pres fewPo using fw_entryToApply, fw_snapshotAndCompact, fw_applyEntry
  all_goals fw
theorem fw_replicateLog (data : Nat) : Pres Few (replicateLog data) := by
  unfold replicateLog
  pres fewPo using fw_logAppend, fw_requestAppendAll, fw_isLeader
  all_goals fw

theorem fw_dispatch (r : Req) : Pres Few (dispatch r) := by
  unfold dispatch handleExtended
  pres fewPo using fw_handleAppendEntries, fw_handleVoteReq, fw_handleCliReq, fw_handleAddSrv, fw_handleRmSrv, fw_handleLogSync,
    fw_handlePrevoteReq, fw_die, fw_handleJoin, fw_handleInstallSnapshot, fw_handleLeave

/-- Every input; requests that are sent again had to be few before. -/
theorem fw_run {x : Input} {p : Params} (hx : ∀ r, x = .retry r → r.Few p) : ∀ s : Srv, s.params = p → Few s (x.run s).2 := by
  intro s hp
  cases x with
  | req r =>
    show Few s ((processReq r >>= fun resp => emit (.reply resp)) s).2
    unfold processReq
    exact pres_bind fewPo (pres_bind fewPo (fw_hearTerm r) fun _ => fw_dispatch r) (fun q => fw_emit _ rfl) s
  | peerResp ty r => exact pres_bind fewPo (fw_rpcResult _ _ _) (fun _ => fw_handlePeerResp r) s
  | extResp p ty r => exact pres_bind fewPo (fw_rpcResult _ _ _) (fun _ => fw_handleExtResp r) s
  | peerErr r => exact fw_rpcResult _ _ _ s
  | extErr p r => exact pres_bind fewPo (fw_rpcResult _ _ _) (fun _ => fw_handleExtErr r) s
  | retry r =>
    show Few s (retryReq r s).2
    unfold retryReq
    split
    · exact fw_send (by rw [hp]; exact hx r rfl)
    · exact fewPo.refl s
  | electionTimeout => exact fw_handleElectionTimeout s
  | hbTimeout id => exact fw_handleHbTimeout _ s
  | apply => exact fw_applyOne s
  | snapDone q ok =>
    exact pres_ite (pres_bind fewPo (fw_keepSnap q) fun _ => fw_onSnapshotCompleted q true) (fw_onSnapshotCompleted q false) s
  | replicate d => exact pres_bind fewPo (fw_replicateLog d) (fun _ => pres_pure fewPo _) s
  | tick n => exact fw_same rfl rfl

end Cs.Raft
