import Verif.Raft.Pres
import Verif.Raft.Frame
import Verif.Raft.Spec

/-!
# Where the blocks of snapshot requests come from

`Blocks`: the block in every request that is sent has been asked from the state machine, and what the state machine returned was
not seen as too short.
-/

set_option linter.unusedSectionVars false

namespace Cs.Raft
open Cs

/-- The block of a request has been asked from the state machine: `n` is the size of the buffer. -/
def Req.Asked (e : Env) (r : Req) : Prop :=
  ∀ q, r.sync = some q → ∃ n : Nat, ¬ e.short q.snap q.offset n ∧ q.data = e.block q.snap q.offset n ∧
    (q.done = true ↔ q.snap.size ≤ q.offset + n) ∧ n < 2147483648

/-- See above. -/
def Blocks (s s' : Srv) : Prop :=
  s'.env = s.env ∧ ∃ es, s'.trace = s.trace ++ es ∧ ∀ r, .send r ∈ es → r.Asked s.env

theorem blocksPo : PO Blocks := by
  refine ⟨fun s => ⟨rfl, [], by simp, by simp⟩, ?_⟩
  rintro a b c ⟨p1, e1, t1, h1⟩ ⟨p2, e2, t2, h2⟩
  refine ⟨p2.trans p1, e1 ++ e2, by rw [t2, t1, List.append_assoc], fun r hr => ?_⟩
  rcases List.mem_append.1 hr with hr | hr
  · exact h1 r hr
  · rw [← p1]; exact h2 r hr

/-- Effects that are not requests, or requests without block. -/
def Eff.blockless : Eff → Bool
  | .send r => r.sync.isNone
  | _ => true

theorem asked_none {e : Env} {r : Req} (h : r.sync = none) : r.Asked e := fun q hq => by rw [h] at hq; cases hq

theorem bk_same {s s' : Srv} (h : s'.env = s.env) (h2 : s'.trace = s.trace) : Blocks s s' := ⟨h, [], by rw [h2, List.append_nil], by simp⟩
theorem bk_mod {f : Srv → Srv} (h : ∀ s, (f s).env = s.env ∧ (f s).trace = s.trace) : Pres Blocks (modify f : R PUnit) :=
  fun s => bk_same (h s).1 (h s).2
theorem bk_send {s : Srv} {r : Req} (h : r.Asked s.env) : Blocks s (emit (.send r) s).2 := ⟨rfl, [.send r], rfl, fun q hq => by
  cases List.mem_singleton.1 hq; exact h⟩
theorem bk_emit (e : Eff) (h : e.blockless = true) : Pres Blocks (emit e) := fun s => ⟨rfl, [e], rfl, fun r hr => by
  rw [← List.mem_singleton.1 hr] at h
  exact asked_none (Option.isNone_iff_eq_none.1 h)⟩
theorem bk_modPeer (r : PeerRef) (f : Peer → Peer) : Pres Blocks (modPeer r f) := fun s => by
  cases r <;> exact bk_same rfl rfl
/-- A request is made and sent. -/
theorem bk_sendOf {β : Type} {m : R Req} (h : Pres Blocks m) (hv : ∀ s, Gives (fun r => r.Asked s.env) (m s).1) {k : R β} (hk : Pres Blocks k) :
    Pres Blocks (m >>= fun r => emit (.send r) >>= fun _ => k) := by
  intro s
  have h1 := h s
  have h2 := hv s
  rcases hc : m s with ⟨e | r, s'⟩
  · rw [run_bind_err hc]; rw [hc] at h1; exact h1
  · rw [run_bind_ok hc]
    rw [hc] at h1 h2
    have h3 := h2 r rfl
    rw [← h1.1] at h3
    exact blocksPo.trans h1 (blocksPo.trans (bk_send h3) (hk _))

/-- The primitive updates. -/
macro "bk" : tactic => `(tactic| first | rfl | exact bk_mod fun _ => ⟨rfl, rfl⟩ | exact bk_mod fun _ => (by split <;> exact ⟨rfl, rfl⟩) | exact bk_same rfl rfl | (intro _; exact bk_same rfl rfl) | skip)

theorem bk_die {α : Type} (c : Int) : Pres Blocks (die c : R α) := by
  unfold die
  pres blocksPo using bk_emit
  all_goals bk
theorem bk_saveState  : Pres Blocks (saveState) := by
  unfold saveState
  pres blocksPo using bk_emit
  all_goals bk
theorem bk_getPeer (r : PeerRef) : Pres Blocks (getPeer r) := by
  unfold getPeer
  pres blocksPo using bk_emit
  all_goals bk
theorem bk_peerIds  : Pres Blocks (peerIds) := by
  unfold peerIds
  pres blocksPo using bk_emit
  all_goals bk
theorem bk_logAppend (e : Entry) : Pres Blocks (logAppend e) := by
  unfold logAppend
  pres blocksPo using bk_emit
  all_goals bk
theorem bk_logWriteAt (i : Nat) (e : Entry) : Pres Blocks (logWriteAt i e) := by
  unfold logWriteAt
  pres blocksPo using bk_emit
  all_goals bk
theorem bk_termAt (i : Nat) : Pres Blocks (termAt i) := by
  unfold termAt
  pres blocksPo using bk_emit
  all_goals bk
theorem bk_entryAt (i : Nat) : Pres Blocks (entryAt i) := by
  unfold entryAt
  pres blocksPo using bk_emit
  all_goals bk
theorem bk_entryToApply (i : Nat) : Pres Blocks (entryToApply i) := by
  unfold entryToApply
  pres blocksPo using bk_die
  all_goals bk
theorem bk_logApplyPack (i : Nat) (es : List Entry) : Pres Blocks (logApplyPack i es) := by
  unfold logApplyPack
  pres blocksPo using bk_emit
  all_goals bk
theorem bk_logCompact (i : Nat) : Pres Blocks (logCompact i) := by
  unfold logCompact
  pres blocksPo using bk_emit
  all_goals bk
theorem bk_termForLog (i : Nat) : Pres Blocks (termForLog i) := by
  unfold termForLog
  pres blocksPo using bk_die, bk_termAt
  all_goals bk
theorem bk_restartElectionTimer  : Pres Blocks (restartElectionTimer) := by
  unfold restartElectionTimer
  pres blocksPo using bk_emit
  all_goals bk
theorem bk_stopElectionTimer  : Pres Blocks (stopElectionTimer) := by
  unfold stopElectionTimer
  pres blocksPo using bk_emit
  all_goals bk
theorem bk_enableHb (r : PeerRef) : Pres Blocks (enableHb r) := by
  unfold enableHb
  pres blocksPo using bk_modPeer
  all_goals bk
theorem bk_becomeFollower  : Pres Blocks (becomeFollower) := by
  unfold becomeFollower
  pres blocksPo using bk_emit, bk_restartElectionTimer
  all_goals bk
theorem bk_updateTerm (term : Nat) : Pres Blocks (updateTerm term) := by
  unfold updateTerm
  pres blocksPo using bk_saveState, bk_becomeFollower
  all_goals bk
theorem bk_chooseSnap (r : PeerRef) (lastIdx : Nat) : Pres Blocks (chooseSnap r lastIdx) := by
  unfold chooseSnap
  pres blocksPo using bk_die, bk_modPeer, bk_getPeer
  all_goals bk
theorem bk_createSyncSnapshotReq (r : PeerRef) (lastIdx term commitIdx : Nat) : Pres Blocks (createSyncSnapshotReq r lastIdx term commitIdx) := by
  unfold createSyncSnapshotReq
  pres blocksPo using bk_die, bk_getPeer, bk_chooseSnap
  all_goals bk
theorem bk_entriesFrom (last : Nat) : Pres Blocks (entriesFrom last) := by
  unfold entriesFrom
  pres blocksPo using bk_emit
  all_goals bk
theorem bk_appendReqFrom (r : PeerRef) (last : Nat) : Pres Blocks (appendReqFrom r last) := by
  unfold appendReqFrom
  pres blocksPo using bk_getPeer, bk_termForLog, bk_entriesFrom
  all_goals bk
theorem bk_createAppendReq (r : PeerRef) : Pres Blocks (createAppendReq r) := by
  unfold createAppendReq
  pres blocksPo using bk_die, bk_modPeer, bk_getPeer, bk_createSyncSnapshotReq, bk_appendReqFrom
  all_goals bk
theorem toI32_lt (x : Int) : toI32 x < 2147483648 := by
  unfold toI32
  have := BitVec.toInt_lt (x := BitVec.ofInt 32 x)
  omega

theorem block_small (p : Params) (a b : Nat) : (min (blockSize p) (toI32 (subU64 a b))).toNat < 2147483648 := by
  have := toI32_lt (subU64 a b)
  omega

theorem asked_createSync (r : PeerRef) (i t c : Nat) (s : Srv) :
    Gives (fun q => q.Asked s.env) (createSyncSnapshotReq r i t c s).1 := by
  unfold createSyncSnapshotReq
  have h1 := bk_chooseSnap r i s
  rcases hc : chooseSnap r i s with ⟨e | u, s1⟩
  · rw [run_bind_err hc]; intro a ha; cases ha
  rw [run_bind_ok hc, bind_get]
  rw [hc] at h1
  have he : s1.env = s.env := h1.1
  rcases hp : s1.peer r with _ | p
  · rw [run_bind_err (getPeer_none hp)]; intro a ha; cases ha
  rw [run_bind_ok (getPeer_some hp)]
  rcases hx : p.snpCtx with _ | ⟨snp, off⟩
  · intro a ha; cases ha
  simp only []
  split
  · intro a ha; cases ha
  split
  · intro a ha; cases ha
  · rename_i hn hs
    rw [he] at hs ⊢
    intro a ha
    cases ha
    intro q hq
    cases hq
    refine ⟨_, hs, rfl, ?_, ?_⟩
    · exact decide_eq_true_iff
    · exact block_small _ _ _

theorem asked_createAppend (r : PeerRef) (s : Srv) : Gives (fun q => q.Asked s.env) (createAppendReq r s).1 := by
  have h2 := (createAppendReq_frame (fun _ => True) r s).2
  unfold createAppendReq at h2 ⊢
  rw [bind_get, bind_modPeer] at h2 ⊢
  have he : (s.setPeer r fun p => if p.nextIdx = 0 then { p with nextIdx := s.log.next } else p).env = s.env := by
    cases r <;> rfl
  generalize (s.setPeer r fun p => if p.nextIdx = 0 then { p with nextIdx := s.log.next } else p) = s1 at h2 he ⊢
  rcases hp : s1.peer r with _ | p
  · rw [run_bind_err (getPeer_none hp)]; intro a ha; cases ha
  rw [run_bind_ok (getPeer_some hp)] at h2 ⊢
  by_cases c1 : s.log.next ≤ p.nextIdx - 1
  · rw [if_pos c1]; intro a ha; cases ha
  rw [if_neg c1] at h2 ⊢
  by_cases c2 : 0 < p.nextIdx - 1 ∧ p.nextIdx - 1 < s.log.start - 1
  · rw [if_pos c2, ← he]
    exact asked_createSync r (p.nextIdx - 1) s.term s.quickCommit s1
  · rw [if_neg c2] at h2 ⊢
    unfold appendReqFrom
    intro a ha
    rcases ht : termForLog (p.nextIdx - 1) s1 with ⟨e | t, s2⟩
    · rw [run_bind_err ht] at ha; cases ha
    rw [run_bind_ok ht] at ha
    rcases hf : entriesFrom (p.nextIdx - 1) s2 with ⟨e | es, s3⟩
    · rw [run_bind_err hf] at ha; cases ha
    rw [run_bind_ok hf, bind_get] at ha
    rcases hg : s3.peer r with _ | p'
    · rw [run_bind_err (getPeer_none hg)] at ha; cases ha
    rw [run_bind_ok (getPeer_some hg)] at ha
    cases ha
    exact asked_none rfl

theorem bk_requestAppend (r : PeerRef) : Pres Blocks (requestAppend r) := by
  unfold requestAppend
  refine pres_bind blocksPo (bk_getPeer _) fun p => pres_ite (pres_pure blocksPo _) (pres_bind blocksPo (bk_modPeer _ _) fun _ => ?_)
  exact bk_sendOf (bk_createAppendReq r) (asked_createAppend r) (pres_pure blocksPo _)
theorem bk_commitNotify (id : Int) : Pres Blocks (commitNotify id) := by
  unfold commitNotify
  pres blocksPo using bk_modPeer, bk_requestAppend
  all_goals bk
theorem bk_commit (target : Nat) : Pres Blocks (commit target) := by
  unfold commit
  pres blocksPo using bk_emit, bk_peerIds, bk_commitNotify
  all_goals bk
theorem bk_requestAppendTo (id : Int) : Pres Blocks (requestAppendTo id) := by
  unfold requestAppendTo
  pres blocksPo using bk_requestAppend
  all_goals bk
theorem bk_requestAppendAll  : Pres Blocks (requestAppendAll) := by
  unfold requestAppendAll
  pres blocksPo using bk_peerIds, bk_commit, bk_requestAppendTo
  all_goals bk
theorem bk_leaderPeer (id : Int) : Pres Blocks (leaderPeer id) := by
  unfold leaderPeer
  pres blocksPo using bk_modPeer, bk_enableHb
  all_goals bk
theorem bk_initialConf  : Pres Blocks (initialConf) := by
  unfold initialConf
  pres blocksPo using bk_logAppend
  all_goals bk
theorem bk_becomeLeader  : Pres Blocks (becomeLeader) := by
  unfold becomeLeader
  pres blocksPo using bk_emit, bk_peerIds, bk_stopElectionTimer, bk_requestAppendAll, bk_leaderPeer, bk_initialConf
  all_goals bk
theorem bk_askVote (ty : MsgType) (id : Int) : Pres Blocks (askVote ty id) := by
  unfold askVote
  pres blocksPo using bk_emit, bk_termForLog
  all_goals bk
theorem bk_voteSelf  : Pres Blocks (voteSelf) := by
  unfold voteSelf
  pres blocksPo using bk_saveState
  all_goals bk
theorem bk_askForVotes  : Pres Blocks (askForVotes) := by
  unfold askForVotes
  pres blocksPo using bk_peerIds, bk_becomeLeader, bk_askVote
  all_goals bk
theorem bk_requestVote  : Pres Blocks (requestVote) := by
  unfold requestVote
  pres blocksPo using bk_voteSelf, bk_askForVotes
  all_goals bk
theorem bk_startTerm  : Pres Blocks (startTerm) := by
  unfold startTerm
  pres blocksPo using bk_saveState
  all_goals bk
theorem bk_rearm  : Pres Blocks (rearm) := by
  unfold rearm
  pres blocksPo using bk_restartElectionTimer
  all_goals bk
theorem bk_becomeCandidate  : Pres Blocks (becomeCandidate) := by
  unfold becomeCandidate
  pres blocksPo using bk_requestVote, bk_startTerm, bk_rearm
  all_goals bk
theorem bk_requestPrevote  : Pres Blocks (requestPrevote) := by
  unfold requestPrevote
  pres blocksPo using bk_peerIds, bk_askVote, bk_becomeCandidate
  all_goals bk
theorem bk_leaveConfig  : Pres Blocks (leaveConfig) := by
  unfold leaveConfig
  pres blocksPo using bk_emit
  all_goals bk
theorem bk_handleElectionTimeout  : Pres Blocks (handleElectionTimeout) := by
  unfold handleElectionTimeout
  pres blocksPo using bk_die, bk_restartElectionTimer, bk_becomeCandidate, bk_requestPrevote, bk_leaveConfig
  all_goals bk
theorem bk_handleHbTimeout (r : PeerRef) : Pres Blocks (handleHbTimeout r) := by
  unfold handleHbTimeout
  pres blocksPo using bk_modPeer, bk_requestAppend
  all_goals bk
theorem bk_skipSame (idx : Nat) (es : List Entry) : Pres Blocks (skipSame idx es) := by
  induction es generalizing idx with
  | nil => exact pres_pure blocksPo _
  | cons e es ih =>
    unfold skipSame
    pres blocksPo using bk_termAt, ih
    all_goals bk
theorem bk_rollbackOld (idx : Nat) : Pres Blocks (rollbackOld idx) := by
  unfold rollbackOld
  pres blocksPo using bk_emit, bk_entryAt
  all_goals bk
theorem bk_noteNew (idx : Nat) (e : Entry) : Pres Blocks (noteNew idx e) := by
  unfold noteNew
  pres blocksPo using bk_emit
  all_goals bk
theorem bk_overwriteOld (idx : Nat) (es : List Entry) : Pres Blocks (overwriteOld idx es) := by
  induction es generalizing idx with
  | nil => exact pres_pure blocksPo _
  | cons e es ih =>
    unfold overwriteOld
    pres blocksPo using bk_rollbackOld, bk_noteNew, bk_logWriteAt, bk_emit, ih
    all_goals bk
theorem bk_appendNew (es : List Entry) : Pres Blocks (appendNew es) := by
  induction es with
  | nil => exact pres_pure blocksPo _
  | cons e es ih =>
    unfold appendNew
    pres blocksPo using bk_logAppend, bk_noteNew, bk_emit, ih
    all_goals bk
theorem bk_storeEntries (req : Req) : Pres Blocks (storeEntries req) := by
  unfold storeEntries
  pres blocksPo using bk_skipSame, bk_overwriteOld, bk_appendNew
  all_goals bk
theorem bk_hearLeader (req : Req) : Pres Blocks (hearLeader req) := by
  unfold hearLeader
  pres blocksPo using bk_die, bk_restartElectionTimer, bk_becomeFollower
  all_goals bk
theorem bk_logOkay (req : Req) : Pres Blocks (logOkay req) := by
  unfold logOkay
  pres blocksPo using bk_termForLog
  all_goals bk
theorem bk_handleAppendEntries (req : Req) : Pres Blocks (handleAppendEntries req) := by
  unfold handleAppendEntries
  pres blocksPo using bk_commit, bk_storeEntries, bk_hearLeader, bk_logOkay
  all_goals bk
theorem bk_handleVoteReq (req : Req) : Pres Blocks (handleVoteReq req) := by
  unfold handleVoteReq
  pres blocksPo using bk_saveState
  all_goals bk
theorem bk_handlePrevoteReq (req : Req) : Pres Blocks (handlePrevoteReq req) := by
  unfold handlePrevoteReq
  pres blocksPo using bk_emit
  all_goals bk
theorem bk_isLeader  : Pres Blocks (isLeader) := by
  unfold isLeader
  pres blocksPo using bk_emit
  all_goals bk
theorem bk_appendClient (es : List Entry) : Pres Blocks (appendClient es) := by
  induction es with
  | nil => exact pres_pure blocksPo _
  | cons e es ih =>
    unfold appendClient
    pres blocksPo using bk_logAppend, bk_noteNew, bk_emit, ih
    all_goals bk
theorem bk_handleCliReq (req : Req) : Pres Blocks (handleCliReq req) := by
  unfold handleCliReq
  pres blocksPo using bk_requestAppendAll, bk_isLeader, bk_appendClient
  all_goals bk
theorem bk_addPeer (c : SrvCfg) : Pres Blocks (addPeer c) := by
  unfold addPeer
  pres blocksPo using bk_modPeer, bk_enableHb
  all_goals bk
theorem bk_removePeer (c : Config) (id : Int) : Pres Blocks (removePeer c id) := by
  unfold removePeer
  pres blocksPo using bk_emit, bk_die
  all_goals bk
theorem bk_reconfigure (c : Config) : Pres Blocks (reconfigure c) := by
  unfold reconfigure
  pres blocksPo using bk_addPeer, bk_removePeer
  all_goals bk
theorem bk_installSnapshot (snp : Snap) : Pres Blocks (installSnapshot snp) := by
  unfold installSnapshot
  pres blocksPo using bk_emit, bk_die, bk_saveState, bk_logCompact, bk_restartElectionTimer, bk_stopElectionTimer, bk_reconfigure
  all_goals bk
theorem bk_handleSnapshotSync (q : SnpSync) : Pres Blocks (handleSnapshotSync q) := by
  unfold handleSnapshotSync
  pres blocksPo using bk_emit, bk_die, bk_installSnapshot
  all_goals bk
theorem bk_hearSnapshotLeader (req : Req) : Pres Blocks (hearSnapshotLeader req) := by
  unfold hearSnapshotLeader
  pres blocksPo using bk_die, bk_restartElectionTimer, bk_becomeFollower
  all_goals bk
theorem bk_handleInstallSnapshot (req : Req) : Pres Blocks (handleInstallSnapshot req) := by
  unfold handleInstallSnapshot
  pres blocksPo using bk_handleSnapshotSync, bk_hearSnapshotLeader
  all_goals bk
theorem bk_handleRmSrv (req : Req) : Pres Blocks (handleRmSrv req) := by
  unfold handleRmSrv
  pres blocksPo using bk_emit
  all_goals bk
theorem bk_inviteSrv  : Pres Blocks (inviteSrv) := by
  unfold inviteSrv
  pres blocksPo using bk_emit, bk_getPeer
  all_goals bk
theorem bk_handleAddSrv (req : Req) : Pres Blocks (handleAddSrv req) := by
  unfold handleAddSrv
  pres blocksPo using bk_inviteSrv
  all_goals bk
theorem bk_handleLogSync (req : Req) : Pres Blocks (handleLogSync req) := by
  unfold handleLogSync
  pres blocksPo using bk_logApplyPack, bk_commit
  all_goals bk
theorem bk_handleJoin (req : Req) : Pres Blocks (handleJoin req) := by
  unfold handleJoin
  pres blocksPo using bk_saveState, bk_reconfigure
  all_goals bk
theorem bk_handleLeave (req : Req) : Pres Blocks (handleLeave req) := by
  unfold handleLeave
  pres blocksPo using bk_emit
  all_goals bk
theorem bk_hearTerm (req : Req) : Pres Blocks (hearTerm req) := by
  unfold hearTerm
  pres blocksPo using bk_updateTerm
  all_goals bk
theorem bk_acceptedResp (resp : Resp) : Pres Blocks (acceptedResp resp) := by
  unfold acceptedResp
  pres blocksPo using bk_modPeer, bk_getPeer, bk_commit
  all_goals bk
theorem bk_refusedResp (resp : Resp) : Pres Blocks (refusedResp resp) := by
  unfold refusedResp
  pres blocksPo using bk_modPeer
  all_goals bk
theorem bk_handleAppendResp (resp : Resp) : Pres Blocks (handleAppendResp resp) := by
  unfold handleAppendResp
  pres blocksPo using bk_requestAppendTo, bk_acceptedResp, bk_refusedResp
  all_goals bk
theorem bk_acceptedSnpResp (resp : Resp) : Pres Blocks (acceptedSnpResp resp) := by
  unfold acceptedSnpResp
  pres blocksPo using bk_modPeer, bk_getPeer
  all_goals bk
theorem bk_handleSnpResp (resp : Resp) : Pres Blocks (handleSnpResp resp) := by
  unfold handleSnpResp
  pres blocksPo using bk_requestAppendTo, bk_acceptedSnpResp
  all_goals bk
theorem bk_handleVotingResp (resp : Resp) : Pres Blocks (handleVotingResp resp) := by
  unfold handleVotingResp
  pres blocksPo using bk_becomeLeader
  all_goals bk
theorem bk_dispatchResp (resp : Resp) : Pres Blocks (dispatchResp resp) := by
  unfold dispatchResp
  pres blocksPo using bk_die, bk_handleAppendResp, bk_handleSnpResp, bk_handleVotingResp
  all_goals bk
theorem bk_handlePeerResp (resp : Resp) : Pres Blocks (handlePeerResp resp) := by
  unfold handlePeerResp
  pres blocksPo using bk_modPeer, bk_updateTerm, bk_dispatchResp
  all_goals bk
theorem bk_handlePrevoteResp (resp : Resp) : Pres Blocks (handlePrevoteResp resp) := by
  unfold handlePrevoteResp
  pres blocksPo using bk_restartElectionTimer, bk_becomeCandidate
  all_goals bk
theorem bk_addToConfig  : Pres Blocks (addToConfig) := by
  unfold addToConfig
  pres blocksPo using bk_logAppend, bk_requestAppendAll
  all_goals bk
theorem bk_syncLogToNewSrv (i : Nat) : Pres Blocks (syncLogToNewSrv i) := by
  unfold syncLogToNewSrv
  refine pres_getBind fun s => ?_
  by_cases h1 : toI32 (subU64 s.quickCommit i) < s.params.logSyncGap
  · rw [if_pos h1]; exact bk_addToConfig s
  rw [if_neg h1]
  by_cases h2 : 0 < i ∧ i < s.log.start
  · rw [if_pos h2]
    exact bk_sendOf (k := pure ()) (bk_createSyncSnapshotReq _ _ _ _) (asked_createSync _ _ _ _) (pres_pure blocksPo _) s
  rw [if_neg h2]
  by_cases h3 : i < s.log.start
  · rw [if_pos h3]; exact blocksPo.refl s
  rw [if_neg h3]
  rcases hk : packOf s.log i (min (toI32 (subU64 s.quickCommit i)) s.params.logSyncBatch) with _ | es
  · exact blocksPo.refl s
  show Blocks s ((getPeer .joining >>= fun p => emit (.send _)) s).2
  rcases hp : s.peer .joining with _ | p
  · rw [run_bind_err (getPeer_none hp)]; exact blocksPo.refl s
  rw [run_bind_ok (getPeer_some hp)]
  exact bk_send (asked_none rfl)
theorem bk_rmSrvFromCluster (id : Int) : Pres Blocks (rmSrvFromCluster id) := by
  unfold rmSrvFromCluster
  pres blocksPo using bk_logAppend, bk_requestAppendAll
  all_goals bk
theorem bk_handleExtSnpResp (resp : Resp) : Pres Blocks (handleExtSnpResp resp) := by
  unfold handleExtSnpResp
  pres blocksPo using bk_die, bk_modPeer, bk_getPeer, bk_syncLogToNewSrv
  all_goals bk
theorem bk_handleExtResp (resp : Resp) : Pres Blocks (handleExtResp resp) := by
  unfold handleExtResp
  pres blocksPo using bk_die, bk_modPeer, bk_handlePrevoteResp, bk_syncLogToNewSrv, bk_rmSrvFromCluster, bk_handleExtSnpResp
  all_goals bk
theorem bk_forceRemove (id : Int) : Pres Blocks (forceRemove id) := by
  unfold forceRemove
  pres blocksPo using bk_rmSrvFromCluster
  all_goals bk
theorem bk_handleExtErr (req : Req) : Pres Blocks (handleExtErr req) := by
  unfold handleExtErr
  pres blocksPo using bk_modPeer, bk_forceRemove
  all_goals bk
theorem bk_rpcResult (r : PeerRef) (ty : MsgType) (ok : Bool) : Pres Blocks (rpcResult r ty ok) := by
  unfold rpcResult
  pres blocksPo using bk_modPeer
  all_goals bk
theorem bk_commitConf (c : Config) : Pres Blocks (commitConf c) := by
  unfold commitConf
  pres blocksPo using bk_emit, bk_reconfigure
  all_goals bk
theorem bk_findConf (idx n : Nat) (c : Config) : Pres Blocks (findConf idx n c) := by
  induction n generalizing c with
  | zero => exact pres_throw blocksPo _
  | succ n ih =>
    unfold findConf
    pres blocksPo using bk_entryAt, bk_die, ih
    all_goals bk
theorem bk_confForSnap (idx : Nat) : Pres Blocks (confForSnap idx) := by
  unfold confForSnap
  pres blocksPo using bk_die, bk_findConf
  all_goals bk
theorem bk_startSnapshot (idx : Nat) : Pres Blocks (startSnapshot idx) := by
  unfold startSnapshot
  pres blocksPo using bk_emit, bk_termAt, bk_confForSnap
  all_goals bk
theorem bk_snapshotAndCompact (idx : Nat) : Pres Blocks (snapshotAndCompact idx) := by
  unfold snapshotAndCompact
  pres blocksPo using bk_startSnapshot
  all_goals bk
theorem bk_keepSnap (snp : Snap) : Pres Blocks (keepSnap snp) := by
  unfold keepSnap
  pres blocksPo using bk_emit
  all_goals bk
theorem bk_onSnapshotCompleted (snp : Snap) (ok : Bool) : Pres Blocks (onSnapshotCompleted snp ok) := by
  unfold onSnapshotCompleted
  pres blocksPo using bk_logCompact
  all_goals bk
theorem bk_applyEntry (i : Nat) (e : Entry) : Pres Blocks (applyEntry i e) := by
  unfold applyEntry
  pres blocksPo using bk_emit, bk_commitConf
  all_goals bk
theorem bk_applyOne  : Pres Blocks (applyOne) := by
  unfold applyOne
  pres blocksPo using bk_entryToApply, bk_snapshotAndCompact, bk_applyEntry
  all_goals bk
theorem bk_replicateLog (data : Nat) : Pres Blocks (replicateLog data) := by
  unfold replicateLog
  pres blocksPo using bk_logAppend, bk_requestAppendAll, bk_isLeader
  all_goals bk

theorem bk_dispatch (r : Req) : Pres Blocks (dispatch r) := by
  unfold dispatch handleExtended
  pres blocksPo using bk_handleAppendEntries, bk_handleVoteReq, bk_handleCliReq, bk_handleAddSrv, bk_handleRmSrv, bk_handleLogSync,
    bk_handlePrevoteReq, bk_die, bk_handleJoin, bk_handleInstallSnapshot, bk_handleLeave

/-- Every input; the blocks of requests that are sent again had to be asked for before. -/
theorem bk_run {x : Input} {p : Env} (hx : ∀ r, x = .retry r → r.Asked p) : ∀ s : Srv, s.env = p → Blocks s (x.run s).2 := by
  intro s hp
  cases x with
  | req r =>
    show Blocks s ((processReq r >>= fun resp => emit (.reply resp)) s).2
    unfold processReq
    exact pres_bind blocksPo (pres_bind blocksPo (bk_hearTerm r) fun _ => bk_dispatch r) (fun q => bk_emit _ rfl) s
  | peerResp ty r => exact pres_bind blocksPo (bk_rpcResult _ _ _) (fun _ => bk_handlePeerResp r) s
  | extResp p ty r => exact pres_bind blocksPo (bk_rpcResult _ _ _) (fun _ => bk_handleExtResp r) s
  | peerErr r => exact bk_rpcResult _ _ _ s
  | extErr p r => exact pres_bind blocksPo (bk_rpcResult _ _ _) (fun _ => bk_handleExtErr r) s
  | retry r =>
    show Blocks s (retryReq r s).2
    unfold retryReq
    split
    · exact bk_send (by rw [hp]; exact hx r rfl)
    · exact blocksPo.refl s
  | electionTimeout => exact bk_handleElectionTimeout s
  | hbTimeout id => exact bk_handleHbTimeout _ s
  | apply => exact bk_applyOne s
  | snapDone q ok =>
    exact pres_ite (pres_bind blocksPo (bk_keepSnap q) fun _ => bk_onSnapshotCompleted q true) (bk_onSnapshotCompleted q false) s
  | replicate d => exact pres_bind blocksPo (bk_replicateLog d) (fun _ => pres_pure blocksPo _) s
  | tick n => exact bk_same rfl rfl

end Cs.Raft
