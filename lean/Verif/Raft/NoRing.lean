import Verif.Raft.NoBeat

/-!
# The election timer of a leader

`NoRing`: if the election timer of a server does not run while it leads, then this remains so. For servers that do not ask for pre-votes.
-/

set_option linter.unusedSectionVars false

namespace Cs.Raft
open Cs

/-- The election timer of a leader does not run. -/
def Srv.Unrung (s : Srv) : Prop := s.role = .leader → s.armed = false

/-- See above. -/
def NoRing (s s' : Srv) : Prop := s.NoPrevote → s'.NoPrevote ∧ (s.Unrung → s'.Unrung)

theorem noRingPo : PO NoRing := ⟨fun _ h => ⟨h, fun g => g⟩, fun h1 h2 h => ⟨(h2 (h1 h).1).1, fun g => (h2 (h1 h).1).2 ((h1 h).2 g)⟩⟩

theorem rg_same {s s' : Srv} (h : s'.role = s.role) (h3 : s'.prevote = s.prevote) (h4 : s'.params = s.params) (h2 : s'.armed = s.armed) :
    NoRing s s' := fun hn => ⟨⟨h4 ▸ hn.1, h3 ▸ hn.2⟩, fun g hl => h2.trans (g (h ▸ hl))⟩
theorem rg_emit (e : Eff) : Pres NoRing (emit e) := fun _ => rg_same rfl rfl rfl rfl
theorem rg_modPeer (r : PeerRef) (f : Peer → Peer) : Pres NoRing (modPeer r f) := fun _ =>
  rg_same (by cases r <;> rfl) (by cases r <;> rfl) (by cases r <;> rfl) (by cases r <;> rfl)

/-- The primitive updates. -/
macro "rg" : tactic => `(tactic| first
  | rfl
  | (exact fun _ => rg_same rfl rfl rfl rfl)
  | (exact rg_same rfl rfl rfl rfl)
  | (exact fun _ h => ⟨h, fun _ _ => rfl⟩)
  | skip)

/-! ## What never makes a leader -/

/-- The server asks for no pre-votes and does not become leader. -/
def Lowly (s s' : Srv) : Prop := (s.NoPrevote → s'.NoPrevote) ∧ (s.role ≠ .leader → s'.role ≠ .leader)
theorem lowlyPo : PO Lowly := ⟨fun _ => ⟨fun h => h, fun h => h⟩, fun h1 h2 => ⟨fun h => h2.1 (h1.1 h), fun h => h2.2 (h1.2 h)⟩⟩
theorem lw_same {s s' : Srv} (h : s'.role = s.role) (h3 : s'.prevote = s.prevote) (h4 : s'.params = s.params) : Lowly s s' :=
  ⟨fun hn => ⟨h4 ▸ hn.1, h3 ▸ hn.2⟩, fun g hl => g (h ▸ hl)⟩
theorem lw_emit (e : Eff) : Pres Lowly (emit e) := fun _ => lw_same rfl rfl rfl
theorem lw_modPeer (r : PeerRef) (f : Peer → Peer) : Pres Lowly (modPeer r f) := fun _ =>
  lw_same (by cases r <;> rfl) (by cases r <;> rfl) (by cases r <;> rfl)
/-- The primitive updates. -/
macro "lw" : tactic => `(tactic| first
  | rfl
  | (exact fun _ => lw_same rfl rfl rfl)
  | (exact lw_same rfl rfl rfl)
  | skip)
theorem lw_die {α : Type} (c : Int) : Pres Lowly (die (α := α) c) := by
  unfold die
  pres lowlyPo using lw_emit
theorem lw_saveState : Pres Lowly saveState := by
  unfold saveState
  pres lowlyPo using lw_emit
theorem lw_logCompact (i : Nat) : Pres Lowly (logCompact i) := by
  unfold logCompact
  pres lowlyPo using lw_emit
  all_goals lw
theorem lw_restartElectionTimer : Pres Lowly restartElectionTimer := by
  unfold restartElectionTimer
  pres lowlyPo using lw_emit
  all_goals lw
theorem lw_stopElectionTimer : Pres Lowly stopElectionTimer := by
  unfold stopElectionTimer
  pres lowlyPo using lw_emit
  all_goals lw
theorem lw_addPeer (c : SrvCfg) : Pres Lowly (addPeer c) := by
  unfold addPeer enableHb
  pres lowlyPo using lw_modPeer
  · intro s
    show Lowly s (if (s.findPeer c.id).isSome = true then s else _)
    split <;> exact lw_same rfl rfl rfl
  all_goals lw
theorem lw_removePeer (c : Config) (id : Int) : Pres Lowly (removePeer c id) := by
  unfold removePeer
  pres lowlyPo using lw_emit, lw_die
  all_goals lw
theorem lw_reconfigure (c : Config) : Pres Lowly (reconfigure c) := by
  unfold reconfigure
  pres lowlyPo using lw_addPeer, lw_removePeer
  all_goals lw
theorem lw_installSnapshot (snp : Snap) : Pres Lowly (installSnapshot snp) := by
  unfold installSnapshot
  pres lowlyPo using lw_emit, lw_die, lw_saveState, lw_logCompact, lw_restartElectionTimer, lw_stopElectionTimer, lw_reconfigure
  all_goals lw

/-! ## All handlers -/

theorem rg_die {α : Type} (c : Int) : Pres NoRing (die c : R α) := by
  unfold die
  pres noRingPo using rg_emit
  all_goals rg
theorem rg_saveState  : Pres NoRing (saveState) := by
  unfold saveState
  pres noRingPo using rg_emit
  all_goals rg
theorem rg_getPeer (r : PeerRef) : Pres NoRing (getPeer r) := by
  unfold getPeer
  pres noRingPo using rg_emit
  all_goals rg
theorem rg_peerIds  : Pres NoRing (peerIds) := by
  unfold peerIds
  pres noRingPo using rg_emit
  all_goals rg
theorem rg_logAppend (e : Entry) : Pres NoRing (logAppend e) := by
  unfold logAppend
  pres noRingPo using rg_emit
  all_goals rg
theorem rg_logWriteAt (i : Nat) (e : Entry) : Pres NoRing (logWriteAt i e) := by
  unfold logWriteAt
  pres noRingPo using rg_emit
  all_goals rg
theorem rg_termAt (i : Nat) : Pres NoRing (termAt i) := by
  unfold termAt
  pres noRingPo using rg_emit
  all_goals rg
theorem rg_entryAt (i : Nat) : Pres NoRing (entryAt i) := by
  unfold entryAt
  pres noRingPo using rg_emit
  all_goals rg
theorem rg_entryToApply (i : Nat) : Pres NoRing (entryToApply i) := by
  unfold entryToApply
  pres noRingPo using rg_die
  all_goals rg
theorem rg_logApplyPack (i : Nat) (es : List Entry) : Pres NoRing (logApplyPack i es) := by
  unfold logApplyPack
  pres noRingPo using rg_emit
  all_goals rg
theorem rg_logCompact (i : Nat) : Pres NoRing (logCompact i) := by
  unfold logCompact
  pres noRingPo using rg_emit
  all_goals rg
theorem rg_termForLog (i : Nat) : Pres NoRing (termForLog i) := by
  unfold termForLog
  pres noRingPo using rg_die, rg_termAt
  all_goals rg
/-- The election timer is started, by a server that is not leader. -/
theorem rg_restart {s : Srv} (hl : s.role ≠ .leader) : NoRing s (restartElectionTimer s).2 := by
  unfold restartElectionTimer
  rw [bind_get]
  split
  · exact noRingPo.refl s
  · exact fun h => ⟨h, fun _ h2 => absurd h2 hl⟩
theorem rg_stopElectionTimer  : Pres NoRing (stopElectionTimer) := by
  unfold stopElectionTimer
  pres noRingPo using rg_emit
  all_goals rg
theorem rg_becomeFollower : Pres NoRing becomeFollower := by
  intro s
  rw [run_becomeFollower]
  exact fun h => ⟨⟨h.1, rfl⟩, fun _ h2 => (by cases h2)⟩
theorem rg_updateTerm (term : Nat) : Pres NoRing (updateTerm term) := by
  unfold updateTerm
  pres noRingPo using rg_saveState, rg_becomeFollower
  all_goals rg
theorem rg_chooseSnap (r : PeerRef) (lastIdx : Nat) : Pres NoRing (chooseSnap r lastIdx) := by
  unfold chooseSnap
  pres noRingPo using rg_die, rg_modPeer, rg_getPeer
  all_goals rg
theorem rg_createSyncSnapshotReq (r : PeerRef) (lastIdx term commitIdx : Nat) : Pres NoRing (createSyncSnapshotReq r lastIdx term commitIdx) := by
  unfold createSyncSnapshotReq
  pres noRingPo using rg_die, rg_getPeer, rg_chooseSnap
  all_goals rg
theorem rg_entriesFrom (last : Nat) : Pres NoRing (entriesFrom last) := by
  unfold entriesFrom
  pres noRingPo using rg_emit
  all_goals rg
theorem rg_appendReqFrom (r : PeerRef) (last : Nat) : Pres NoRing (appendReqFrom r last) := by
  unfold appendReqFrom
  pres noRingPo using rg_getPeer, rg_termForLog, rg_entriesFrom
  all_goals rg
theorem rg_createAppendReq (r : PeerRef) : Pres NoRing (createAppendReq r) := by
  unfold createAppendReq
  pres noRingPo using rg_die, rg_modPeer, rg_getPeer, rg_createSyncSnapshotReq, rg_appendReqFrom
  all_goals rg
theorem rg_requestAppend (r : PeerRef) : Pres NoRing (requestAppend r) := by
  unfold requestAppend
  pres noRingPo using rg_getPeer, rg_modPeer, rg_createAppendReq, rg_emit
  all_goals rg
theorem rg_commitNotify (id : Int) : Pres NoRing (commitNotify id) := by
  unfold commitNotify
  pres noRingPo using rg_modPeer, rg_requestAppend
  all_goals rg
theorem rg_commit (target : Nat) : Pres NoRing (commit target) := by
  unfold commit
  pres noRingPo using rg_emit, rg_peerIds, rg_commitNotify
  all_goals rg
theorem rg_requestAppendTo (id : Int) : Pres NoRing (requestAppendTo id) := by
  unfold requestAppendTo
  pres noRingPo using rg_requestAppend
  all_goals rg
theorem rg_requestAppendAll  : Pres NoRing (requestAppendAll) := by
  unfold requestAppendAll
  pres noRingPo using rg_peerIds, rg_commit, rg_requestAppendTo
  all_goals rg
theorem rg_leaderPeer (i : Int) : Pres NoRing (leaderPeer i) := by
  unfold leaderPeer enableHb
  pres noRingPo using rg_modPeer
theorem rg_initialConf  : Pres NoRing (initialConf) := by
  unfold initialConf
  pres noRingPo using rg_logAppend
  all_goals rg
theorem rg_becomeLeader : Pres NoRing becomeLeader := by
  intro s
  have hk : Pres NoRing (do
      let ids ← peerIds
      forEach leaderPeer ids
      initialConf
      emit (.event .becomeLeader)
      requestAppendAll : R Unit) := by
    pres noRingPo using rg_peerIds, rg_leaderPeer, rg_initialConf, rg_emit, rg_requestAppendAll
  have h0 : ∃ s0 : Srv, becomeLeader s = (do
      let ids ← peerIds
      forEach leaderPeer ids
      initialConf
      emit (.event .becomeLeader)
      requestAppendAll : R Unit) s0 ∧ s0.armed = false ∧ s0.prevote = s.prevote ∧ s0.params = s.params := ⟨_, rfl, rfl, rfl, rfl⟩
  obtain ⟨s0, h0, hr, hv, ha⟩ := h0
  rw [h0]
  refine noRingPo.trans (fun h => ⟨⟨?_, ?_⟩, fun _ _ => hr⟩) (hk s0)
  · rw [ha]; exact h.1
  · rw [hv]; exact h.2
theorem rg_askVote (ty : MsgType) (id : Int) : Pres NoRing (askVote ty id) := by
  unfold askVote
  pres noRingPo using rg_emit, rg_termForLog
  all_goals rg
theorem rg_voteSelf  : Pres NoRing (voteSelf) := by
  unfold voteSelf
  pres noRingPo using rg_saveState
  all_goals rg
theorem rg_askForVotes  : Pres NoRing (askForVotes) := by
  unfold askForVotes
  pres noRingPo using rg_peerIds, rg_becomeLeader, rg_askVote
  all_goals rg
theorem rg_requestVote  : Pres NoRing (requestVote) := by
  unfold requestVote
  pres noRingPo using rg_voteSelf, rg_askForVotes
  all_goals rg
theorem rg_startTerm : Pres NoRing startTerm := fun _ h => ⟨⟨h.1, rfl⟩, fun _ h2 => (by cases h2)⟩
theorem rg_rearm : Pres NoRing rearm := by
  intro s
  unfold rearm
  rw [bind_get]
  by_cases h : s.role ≠ .leader
  · rw [if_pos h]; exact rg_restart h
  · rw [if_neg h]; exact noRingPo.refl s
theorem rg_becomeCandidate  : Pres NoRing (becomeCandidate) := by
  unfold becomeCandidate
  pres noRingPo using rg_requestVote, rg_startTerm, rg_rearm
  all_goals rg
theorem rg_leaveConfig  : Pres NoRing (leaveConfig) := by
  unfold leaveConfig
  pres noRingPo using rg_emit
  all_goals rg
/-- The timer expires while the server is not leader. -/
theorem rg_handleElectionTimeout {s : Srv} (hl : s.role ≠ .leader) : NoRing s (handleElectionTimeout s).2 := by
  unfold handleElectionTimeout
  rw [bind_modify, bind_get]
  refine noRingPo.trans (show NoRing s { s with armed := false } from fun h => ⟨h, fun _ _ => rfl⟩) ?_
  have hl : ({ s with armed := false } : Srv).role ≠ .leader := hl
  generalize { s with armed := false } = s2 at hl
  by_cases c1 : 0 < s2.stepsToDown
  · rw [if_pos c1, bind_modify]
    refine noRingPo.trans (show NoRing s2 { s2 with stepsToDown := s2.stepsToDown - 1 } from rg_same rfl rfl rfl rfl) ?_
    by_cases c0 : s2.stepsToDown - 1 = 0
    · rw [if_pos c0]
      exact pres_bind noRingPo rg_leaveConfig (fun _ => rg_die _) _
    · rw [if_neg c0]; exact rg_restart hl
  rw [if_neg c1]
  by_cases c2 : s2.catchingUp = true
  · rw [if_pos c2]; exact rg_restart hl
  rw [if_neg c2]
  by_cases c3 : s2.role = .leader
  · rw [if_pos c3]; exact rg_die _ s2
  rw [if_neg c3]
  by_cases c4 : s2.params.prevote = true ∧ s2.role = .follower
  · intro h
    rw [h.1] at c4
    exact absurd c4.1 Bool.false_ne_true
  · rw [if_neg c4]; exact rg_becomeCandidate s2
theorem rg_handleHbTimeout (r : PeerRef) : Pres NoRing (handleHbTimeout r) := by
  unfold handleHbTimeout
  pres noRingPo using rg_modPeer, rg_requestAppend
theorem rg_skipSame (idx : Nat) (es : List Entry) : Pres NoRing (skipSame idx es) := by
  induction es generalizing idx with
  | nil => exact pres_pure noRingPo _
  | cons e es ih =>
    unfold skipSame
    pres noRingPo using rg_termAt, ih
    all_goals rg
theorem rg_rollbackOld (idx : Nat) : Pres NoRing (rollbackOld idx) := by
  unfold rollbackOld
  pres noRingPo using rg_emit, rg_entryAt
  all_goals rg
theorem rg_noteNew (idx : Nat) (e : Entry) : Pres NoRing (noteNew idx e) := by
  unfold noteNew
  pres noRingPo using rg_emit
  all_goals rg
theorem rg_overwriteOld (idx : Nat) (es : List Entry) : Pres NoRing (overwriteOld idx es) := by
  induction es generalizing idx with
  | nil => exact pres_pure noRingPo _
  | cons e es ih =>
    unfold overwriteOld
    pres noRingPo using rg_rollbackOld, rg_noteNew, rg_logWriteAt, rg_emit, ih
    all_goals rg
theorem rg_appendNew (es : List Entry) : Pres NoRing (appendNew es) := by
  induction es with
  | nil => exact pres_pure noRingPo _
  | cons e es ih =>
    unfold appendNew
    pres noRingPo using rg_logAppend, rg_noteNew, rg_emit, ih
    all_goals rg
theorem rg_storeEntries (req : Req) : Pres NoRing (storeEntries req) := by
  unfold storeEntries
  pres noRingPo using rg_skipSame, rg_overwriteOld, rg_appendNew
  all_goals rg
theorem rg_hearLeader (req : Req) : Pres NoRing (hearLeader req) := by
  intro s
  unfold hearLeader
  rw [bind_get]
  by_cases h : req.term = s.term
  · rw [if_pos h]
    rcases hr : s.role with _ | _ | _
    · exact rg_restart (by rw [hr]; exact fun h => (by cases h))
    · exact rg_becomeFollower s
    · exact rg_die _ s
  · rw [if_neg h]; exact noRingPo.refl s
theorem rg_logOkay (req : Req) : Pres NoRing (logOkay req) := by
  unfold logOkay
  pres noRingPo using rg_termForLog
  all_goals rg
theorem rg_handleAppendEntries (req : Req) : Pres NoRing (handleAppendEntries req) := by
  unfold handleAppendEntries
  pres noRingPo using rg_commit, rg_storeEntries, rg_hearLeader, rg_logOkay
  all_goals rg
theorem rg_handleVoteReq (req : Req) : Pres NoRing (handleVoteReq req) := by
  unfold handleVoteReq
  pres noRingPo using rg_saveState
  all_goals rg
theorem rg_handlePrevoteReq (req : Req) : Pres NoRing (handlePrevoteReq req) := by
  unfold handlePrevoteReq
  pres noRingPo using rg_emit
  all_goals rg
theorem rg_isLeader  : Pres NoRing (isLeader) := by
  unfold isLeader
  pres noRingPo using rg_emit
  all_goals rg
theorem rg_appendClient (es : List Entry) : Pres NoRing (appendClient es) := by
  induction es with
  | nil => exact pres_pure noRingPo _
  | cons e es ih =>
    unfold appendClient
    pres noRingPo using rg_logAppend, rg_noteNew, rg_emit, ih
    all_goals rg
theorem rg_handleCliReq (req : Req) : Pres NoRing (handleCliReq req) := by
  unfold handleCliReq
  pres noRingPo using rg_requestAppendAll, rg_isLeader, rg_appendClient
  all_goals rg
theorem rg_addPeer (c : SrvCfg) : Pres NoRing (addPeer c) := by
  unfold addPeer enableHb
  pres noRingPo using rg_modPeer
  · intro s
    show NoRing s (if (s.findPeer c.id).isSome = true then s else _)
    split <;> exact rg_same rfl rfl rfl rfl
  all_goals rg
theorem rg_removePeer (c : Config) (id : Int) : Pres NoRing (removePeer c id) := by
  unfold removePeer
  pres noRingPo using rg_emit, rg_die
  all_goals rg
theorem rg_reconfigure (c : Config) : Pres NoRing (reconfigure c) := by
  unfold reconfigure
  pres noRingPo using rg_addPeer, rg_removePeer
  all_goals rg
/-- A snapshot is installed by a server that is not leader. -/
theorem rg_installSnapshot {s : Srv} (snp : Snap) (hl : s.role ≠ .leader) : NoRing s (installSnapshot snp s).2 :=
  fun h => ⟨(lw_installSnapshot snp s).1 h, fun _ h2 => absurd h2 ((lw_installSnapshot snp s).2 hl)⟩
theorem rg_handleSnapshotSync (q : SnpSync) : Pres NoRing (handleSnapshotSync q) := by
  unfold handleSnapshotSync
  refine pres_bind noRingPo (rg_emit _) fun _ => ?_
  intro s
  by_cases hd : q.done = true
  · rw [if_pos hd, bind_get]
    by_cases h : s.role ≠ .follower
    · rw [if_pos h]; exact rg_die _ s
    · rw [if_neg h]
      exact rg_installSnapshot _ fun h2 => h (by rw [h2]; exact fun h => (by cases h))
  · rw [if_neg hd]; exact noRingPo.refl s
theorem rg_hearSnapshotLeader (req : Req) : Pres NoRing (hearSnapshotLeader req) := by
  intro s
  unfold hearSnapshotLeader
  rw [bind_get]
  by_cases h : req.term = s.term ∧ s.catchingUp = false
  · rw [if_pos h]
    rcases hr : s.role with _ | _ | _
    · exact rg_restart (by rw [hr]; exact fun h => (by cases h))
    · exact rg_becomeFollower s
    · exact rg_die _ s
  · rw [if_neg h]; exact noRingPo.refl s
theorem rg_handleInstallSnapshot (req : Req) : Pres NoRing (handleInstallSnapshot req) := by
  unfold handleInstallSnapshot
  pres noRingPo using rg_handleSnapshotSync, rg_hearSnapshotLeader
  all_goals rg
theorem rg_handleRmSrv (req : Req) : Pres NoRing (handleRmSrv req) := by
  unfold handleRmSrv
  pres noRingPo using rg_emit
  all_goals rg
theorem rg_inviteSrv  : Pres NoRing (inviteSrv) := by
  unfold inviteSrv
  pres noRingPo using rg_emit, rg_getPeer
  all_goals rg
theorem rg_handleAddSrv (req : Req) : Pres NoRing (handleAddSrv req) := by
  unfold handleAddSrv
  pres noRingPo using rg_inviteSrv
  all_goals rg
theorem rg_handleLogSync (req : Req) : Pres NoRing (handleLogSync req) := by
  unfold handleLogSync
  pres noRingPo using rg_logApplyPack, rg_commit
  all_goals rg
theorem rg_handleLeave (req : Req) : Pres NoRing (handleLeave req) := by
  unfold handleLeave
  pres noRingPo using rg_emit
  all_goals rg
theorem rg_hearTerm (req : Req) : Pres NoRing (hearTerm req) := by
  unfold hearTerm
  pres noRingPo using rg_updateTerm
  all_goals rg
theorem rg_acceptedResp (resp : Resp) : Pres NoRing (acceptedResp resp) := by
  unfold acceptedResp
  pres noRingPo using rg_modPeer, rg_getPeer, rg_commit
  all_goals rg
theorem rg_refusedResp (resp : Resp) : Pres NoRing (refusedResp resp) := by
  unfold refusedResp
  pres noRingPo using rg_modPeer
  all_goals rg
theorem rg_handleAppendResp (resp : Resp) : Pres NoRing (handleAppendResp resp) := by
  unfold handleAppendResp
  pres noRingPo using rg_requestAppendTo, rg_acceptedResp, rg_refusedResp
  all_goals rg
theorem rg_acceptedSnpResp (resp : Resp) : Pres NoRing (acceptedSnpResp resp) := by
  unfold acceptedSnpResp
  pres noRingPo using rg_modPeer, rg_getPeer
  all_goals rg
theorem rg_handleSnpResp (resp : Resp) : Pres NoRing (handleSnpResp resp) := by
  unfold handleSnpResp
  pres noRingPo using rg_requestAppendTo, rg_acceptedSnpResp
  all_goals rg
theorem rg_handleVotingResp (resp : Resp) : Pres NoRing (handleVotingResp resp) := by
  unfold handleVotingResp
  pres noRingPo using rg_becomeLeader
  all_goals rg
theorem rg_dispatchResp (resp : Resp) : Pres NoRing (dispatchResp resp) := by
  unfold dispatchResp
  pres noRingPo using rg_die, rg_handleAppendResp, rg_handleSnpResp, rg_handleVotingResp
  all_goals rg
theorem rg_handlePeerResp (resp : Resp) : Pres NoRing (handlePeerResp resp) := by
  unfold handlePeerResp
  pres noRingPo using rg_modPeer, rg_updateTerm, rg_dispatchResp
  all_goals rg
theorem rg_handlePrevoteResp (resp : Resp) : Pres NoRing (handlePrevoteResp resp) := by
  intro s h
  have e : handlePrevoteResp resp s = (.ok ⟨⟩, s) := by
    unfold handlePrevoteResp
    rw [bind_get, h.2]
    rfl
  rw [e]
  exact ⟨h, fun g => g⟩
theorem rg_addToConfig  : Pres NoRing (addToConfig) := by
  unfold addToConfig
  pres noRingPo using rg_logAppend, rg_requestAppendAll
  all_goals rg
theorem rg_syncLogToNewSrv (i : Nat) : Pres NoRing (syncLogToNewSrv i) := by
  unfold syncLogToNewSrv
  pres noRingPo using rg_addToConfig, rg_createSyncSnapshotReq, rg_emit, rg_getPeer
  all_goals rg
theorem rg_rmSrvFromCluster (id : Int) : Pres NoRing (rmSrvFromCluster id) := by
  unfold rmSrvFromCluster
  pres noRingPo using rg_logAppend, rg_requestAppendAll
  all_goals rg
theorem rg_handleExtSnpResp (resp : Resp) : Pres NoRing (handleExtSnpResp resp) := by
  unfold handleExtSnpResp
  pres noRingPo using rg_die, rg_modPeer, rg_getPeer, rg_syncLogToNewSrv
  all_goals rg
theorem rg_handleExtResp (resp : Resp) : Pres NoRing (handleExtResp resp) := by
  unfold handleExtResp
  pres noRingPo using rg_die, rg_modPeer, rg_handlePrevoteResp, rg_syncLogToNewSrv, rg_rmSrvFromCluster, rg_handleExtSnpResp
  all_goals rg
theorem rg_forceRemove (id : Int) : Pres NoRing (forceRemove id) := by
  unfold forceRemove
  pres noRingPo using rg_rmSrvFromCluster
  all_goals rg
theorem rg_handleExtErr (req : Req) : Pres NoRing (handleExtErr req) := by
  unfold handleExtErr
  pres noRingPo using rg_modPeer, rg_forceRemove
  all_goals rg
theorem rg_rpcResult (r : PeerRef) (ty : MsgType) (ok : Bool) : Pres NoRing (rpcResult r ty ok) := by
  unfold rpcResult
  pres noRingPo using rg_modPeer
  all_goals rg
theorem rg_commitConf (c : Config) : Pres NoRing (commitConf c) := by
  unfold commitConf
  pres noRingPo using rg_emit, rg_reconfigure
  all_goals rg
theorem rg_findConf (idx n : Nat) (c : Config) : Pres NoRing (findConf idx n c) := by
  induction n generalizing c with
  | zero => exact pres_throw noRingPo _
  | succ n ih =>
    unfold findConf
    pres noRingPo using rg_entryAt, rg_die, ih
    all_goals rg
theorem rg_confForSnap (idx : Nat) : Pres NoRing (confForSnap idx) := by
  unfold confForSnap
  pres noRingPo using rg_die, rg_findConf
  all_goals rg
theorem rg_startSnapshot (idx : Nat) : Pres NoRing (startSnapshot idx) := by
  unfold startSnapshot
  pres noRingPo using rg_emit, rg_termAt, rg_confForSnap
  all_goals rg
theorem rg_snapshotAndCompact (idx : Nat) : Pres NoRing (snapshotAndCompact idx) := by
  unfold snapshotAndCompact
  pres noRingPo using rg_startSnapshot
  all_goals rg
theorem rg_keepSnap (snp : Snap) : Pres NoRing (keepSnap snp) := by
  unfold keepSnap
  pres noRingPo using rg_emit
  all_goals rg
theorem rg_onSnapshotCompleted (snp : Snap) (ok : Bool) : Pres NoRing (onSnapshotCompleted snp ok) := by
  unfold onSnapshotCompleted
  pres noRingPo using rg_logCompact
  all_goals rg
theorem rg_applyEntry (i : Nat) (e : Entry) : Pres NoRing (applyEntry i e) := by
  unfold applyEntry
  pres noRingPo using rg_emit, rg_commitConf
  all_goals rg
theorem rg_applyOne  : Pres NoRing (applyOne) := by
  unfold applyOne
  pres noRingPo using rg_entryToApply, rg_snapshotAndCompact, rg_applyEntry
  all_goals rg
theorem rg_replicateLog (data : Nat) : Pres NoRing (replicateLog data) := by
  unfold replicateLog
  pres noRingPo using rg_logAppend, rg_requestAppendAll, rg_isLeader
  all_goals rg

/-- An invitation. -/
theorem rg_handleJoin (req : Req) : Pres NoRing (handleJoin req) := by
  unfold handleJoin
  pres noRingPo using rg_saveState, rg_reconfigure
  all_goals first
    | (exact fun _ => rg_same rfl rfl rfl rfl)
    | (exact fun _ h => ⟨h, fun _ h2 => (by cases h2)⟩)
    | rg
theorem rg_dispatch (r : Req) : Pres NoRing (dispatch r) := by
  unfold dispatch handleExtended
  pres noRingPo using rg_handleAppendEntries, rg_handleVoteReq, rg_handleCliReq, rg_handleAddSrv, rg_handleRmSrv, rg_handleLogSync,
    rg_handlePrevoteReq, rg_die, rg_handleInstallSnapshot, rg_handleLeave, rg_handleJoin
/-- Every input, if the election timer expires only while the server is not leader. -/
theorem rg_run {x : Input} {s : Srv} (hx : x = .electionTimeout → s.role ≠ .leader) : NoRing s (x.run s).2 := by
  cases x with
  | req r =>
    show NoRing s ((processReq r >>= fun resp => emit (.reply resp)) s).2
    unfold processReq
    exact pres_bind noRingPo (pres_bind noRingPo (rg_hearTerm r) fun _ => rg_dispatch r) (fun q => rg_emit _) s
  | peerResp ty r => exact pres_bind noRingPo (rg_rpcResult _ _ _) (fun _ => rg_handlePeerResp r) s
  | extResp p ty r => exact pres_bind noRingPo (rg_rpcResult _ _ _) (fun _ => rg_handleExtResp r) s
  | peerErr r => exact rg_rpcResult _ _ _ s
  | extErr p r => exact pres_bind noRingPo (rg_rpcResult _ _ _) (fun _ => rg_handleExtErr r) s
  | retry r =>
    show NoRing s (retryReq r s).2
    unfold retryReq
    split
    · exact rg_emit _ s
    · exact noRingPo.refl s
  | electionTimeout => exact rg_handleElectionTimeout (hx rfl)
  | hbTimeout id => exact rg_handleHbTimeout _ s
  | apply => exact rg_applyOne s
  | snapDone q ok =>
    exact pres_ite (pres_bind noRingPo (rg_keepSnap q) fun _ => rg_onSnapshotCompleted q true) (rg_onSnapshotCompleted q false) s
  | replicate d => exact pres_bind noRingPo (rg_replicateLog d) (fun _ => pres_pure noRingPo _) s
  | tick n => exact rg_same rfl rfl rfl rfl

end Cs.Raft
