import Verif.Raft.Beat

/-!
# Heartbeat timers of servers that do not ask for pre-votes

`NoBeat`: if a server that is not leader has no running heartbeat timer, then this remains so.
-/

set_option linter.unusedSectionVars false

namespace Cs.Raft
open Cs

/-- The server does not ask for pre-votes, and has not done so. -/
def Srv.NoPrevote (s : Srv) : Prop := s.params.prevote = false ∧ s.prevote = none
/-- A server that is not leader has no running timer. -/
def Srv.Rests (s : Srv) : Prop := s.role ≠ .leader → ∀ p ∈ s.peers, p.Resting

/-- See above. -/
def NoBeat (s s' : Srv) : Prop := s.NoPrevote → s'.NoPrevote ∧ (s.Rests → s'.Rests)

theorem noBeatPo : PO NoBeat := ⟨fun _ h => ⟨h, fun g => g⟩, fun h1 h2 h => ⟨(h2 (h1 h).1).1, fun g => (h2 (h1 h).1).2 ((h1 h).2 g)⟩⟩

theorem nb_sub {s s' : Srv} (h : s'.role = s.role) (h3 : s'.prevote = s.prevote) (h4 : s'.params = s.params)
    (h2 : ∀ p' ∈ s'.peers, ∃ p ∈ s.peers, p'.hbEnabled = p.hbEnabled ∧ p'.hbArmed = p.hbArmed) : NoBeat s s' := by
  refine fun hn => ⟨⟨h4 ▸ hn.1, h3 ▸ hn.2⟩, fun g hl p' hp => ?_⟩
  obtain ⟨p, h5, h6, h7⟩ := h2 p' hp
  have := g (h ▸ hl) p h5
  exact ⟨h6.trans this.1, h7.trans this.2⟩
theorem nb_same {s s' : Srv} (h : s'.role = s.role) (h3 : s'.prevote = s.prevote) (h4 : s'.params = s.params) (h2 : s'.peers = s.peers) :
    NoBeat s s' := nb_sub h h3 h4 fun p hp => ⟨p, h2 ▸ hp, rfl, rfl⟩
theorem nb_filter {s : Srv} (f : Peer → Bool) : NoBeat s { s with peers := s.peers.filter f } :=
  nb_sub rfl rfl rfl fun p hp => ⟨p, (List.mem_filter.1 hp).1, rfl, rfl⟩
theorem nb_some (s : Srv) {i : Int} : ∀ p' ∈ (if s.peers.length = 1 then s.peers.filter fun p => p.id != i else s.peers),
    ∃ p ∈ s.peers, p'.hbEnabled = p.hbEnabled ∧ p'.hbArmed = p.hbArmed := by
  intro p hp
  split at hp
  · exact ⟨p, (List.mem_filter.1 hp).1, rfl, rfl⟩
  · exact ⟨p, hp, rfl, rfl⟩
theorem nb_emit (e : Eff) : Pres NoBeat (emit e) := fun _ => nb_same rfl rfl rfl rfl

theorem nb_modPeer (r : PeerRef) (f : Peer → Peer) (hf : HbTame f) : Pres NoBeat (modPeer r f) := fun s => by
  refine nb_sub (by cases r <;> rfl) (by cases r <;> rfl) (by cases r <;> rfl) fun p' hp => ?_
  cases r with
  | member i =>
    obtain ⟨p, h0, rfl⟩ := List.mem_map.1 hp
    refine ⟨p, h0, ?_⟩
    split
    · exact (hf p).2
    · exact ⟨rfl, rfl⟩
  | joining => exact ⟨p', hp, rfl, rfl⟩

/-- Changes of peers that set no timer, unless the heartbeat is enabled. -/
theorem nb_quiet (r : PeerRef) (f : Peer → Peer) (hf : ∀ p, p.Resting → (f p).Resting) : Pres NoBeat (modPeer r f) := fun s h => by
  refine ⟨⟨by cases r <;> exact h.1, by cases r <;> exact h.2⟩, fun g hl p hp => ?_⟩
  cases r with
  | member i =>
    obtain ⟨p0, h0, rfl⟩ := List.mem_map.1 hp
    split
    · exact hf p0 (g hl p0 h0)
    · exact g hl p0 h0
  | joining => exact g hl p hp
theorem nb_disarm (r : PeerRef) : Pres NoBeat (modPeer r fun p => { p with hbArmed := false }) := nb_quiet r _ fun _ h => ⟨h.1, rfl⟩
theorem nb_arm (r : PeerRef) : Pres NoBeat (modPeer r fun p => if p.hbEnabled then { p with hbArmed := true } else p) :=
  nb_quiet r _ fun p h => by rw [if_neg (by rw [h.1]; exact Bool.false_ne_true)]; exact h

/-- The primitive updates. -/
macro "nb" : tactic => `(tactic| first
  | rfl
  | (exact fun _ => ⟨rfl, rfl, rfl⟩)
  | (exact fun _ => nb_same rfl rfl rfl rfl)
  | (exact fun _ => nb_filter _)
  | (exact nb_same rfl rfl rfl rfl)
  | (intro _; dsimp only; split <;> exact ⟨rfl, rfl, rfl⟩)
  | (intro _; dsimp only; split <;> first | exact ⟨rfl, rfl, rfl⟩ | (split <;> exact ⟨rfl, rfl, rfl⟩))
  | (intro s; exact nb_sub rfl rfl rfl (nb_some s))
  | skip)

theorem nb_die {α : Type} (c : Int) : Pres NoBeat (die c : R α) := by
  unfold die
  pres noBeatPo using nb_emit
  all_goals nb
theorem nb_saveState  : Pres NoBeat (saveState) := by
  unfold saveState
  pres noBeatPo using nb_emit
  all_goals nb
theorem nb_getPeer (r : PeerRef) : Pres NoBeat (getPeer r) := by
  unfold getPeer
  pres noBeatPo using nb_emit
  all_goals nb
theorem nb_peerIds  : Pres NoBeat (peerIds) := by
  unfold peerIds
  pres noBeatPo using nb_emit
  all_goals nb
theorem nb_logAppend (e : Entry) : Pres NoBeat (logAppend e) := by
  unfold logAppend
  pres noBeatPo using nb_emit
  all_goals nb
theorem nb_logWriteAt (i : Nat) (e : Entry) : Pres NoBeat (logWriteAt i e) := by
  unfold logWriteAt
  pres noBeatPo using nb_emit
  all_goals nb
theorem nb_termAt (i : Nat) : Pres NoBeat (termAt i) := by
  unfold termAt
  pres noBeatPo using nb_emit
  all_goals nb
theorem nb_entryAt (i : Nat) : Pres NoBeat (entryAt i) := by
  unfold entryAt
  pres noBeatPo using nb_emit
  all_goals nb
theorem nb_entryToApply (i : Nat) : Pres NoBeat (entryToApply i) := by
  unfold entryToApply
  pres noBeatPo using nb_die
  all_goals nb
theorem nb_logApplyPack (i : Nat) (es : List Entry) : Pres NoBeat (logApplyPack i es) := by
  unfold logApplyPack
  pres noBeatPo using nb_emit
  all_goals nb
theorem nb_logCompact (i : Nat) : Pres NoBeat (logCompact i) := by
  unfold logCompact
  pres noBeatPo using nb_emit
  all_goals nb
theorem nb_termForLog (i : Nat) : Pres NoBeat (termForLog i) := by
  unfold termForLog
  pres noBeatPo using nb_die, nb_termAt
  all_goals nb
theorem nb_restartElectionTimer  : Pres NoBeat (restartElectionTimer) := by
  unfold restartElectionTimer
  pres noBeatPo using nb_emit
  all_goals nb
theorem nb_stopElectionTimer  : Pres NoBeat (stopElectionTimer) := by
  unfold stopElectionTimer
  pres noBeatPo using nb_emit
  all_goals nb
theorem nb_becomeFollower : Pres NoBeat becomeFollower := by
  intro s
  rw [run_becomeFollower]
  refine fun h => ⟨⟨h.1, rfl⟩, fun _ _ p hp => ?_⟩
  obtain ⟨p0, _, rfl⟩ := List.mem_map.1 hp
  exact ⟨rfl, rfl⟩
theorem nb_updateTerm (term : Nat) : Pres NoBeat (updateTerm term) := by
  unfold updateTerm
  pres noBeatPo using nb_saveState, nb_becomeFollower
  all_goals nb
theorem nb_chooseSnap (r : PeerRef) (lastIdx : Nat) : Pres NoBeat (chooseSnap r lastIdx) := by
  unfold chooseSnap
  pres noBeatPo using nb_die, nb_modPeer, nb_getPeer
  all_goals nb
theorem nb_createSyncSnapshotReq (r : PeerRef) (lastIdx term commitIdx : Nat) : Pres NoBeat (createSyncSnapshotReq r lastIdx term commitIdx) := by
  unfold createSyncSnapshotReq
  pres noBeatPo using nb_die, nb_getPeer, nb_chooseSnap
  all_goals nb
theorem nb_entriesFrom (last : Nat) : Pres NoBeat (entriesFrom last) := by
  unfold entriesFrom
  pres noBeatPo using nb_emit
  all_goals nb
theorem nb_appendReqFrom (r : PeerRef) (last : Nat) : Pres NoBeat (appendReqFrom r last) := by
  unfold appendReqFrom
  pres noBeatPo using nb_getPeer, nb_termForLog, nb_entriesFrom
  all_goals nb
theorem nb_createAppendReq (r : PeerRef) : Pres NoBeat (createAppendReq r) := by
  unfold createAppendReq
  pres noBeatPo using nb_die, nb_modPeer, nb_getPeer, nb_createSyncSnapshotReq, nb_appendReqFrom
  all_goals nb
theorem nb_requestAppend (r : PeerRef) : Pres NoBeat (requestAppend r) := by
  unfold requestAppend
  pres noBeatPo using nb_getPeer, nb_modPeer, nb_createAppendReq, nb_emit
  all_goals nb
theorem nb_commitNotify (id : Int) : Pres NoBeat (commitNotify id) := by
  unfold commitNotify
  pres noBeatPo using nb_modPeer, nb_requestAppend
  all_goals nb
theorem nb_commit (target : Nat) : Pres NoBeat (commit target) := by
  unfold commit
  pres noBeatPo using nb_emit, nb_peerIds, nb_commitNotify
  all_goals nb
theorem nb_requestAppendTo (id : Int) : Pres NoBeat (requestAppendTo id) := by
  unfold requestAppendTo
  pres noBeatPo using nb_requestAppend
  all_goals nb
theorem nb_requestAppendAll  : Pres NoBeat (requestAppendAll) := by
  unfold requestAppendAll
  pres noBeatPo using nb_peerIds, nb_commit, nb_requestAppendTo
  all_goals nb
theorem nb_leaderPeers : ∀ (ids : List Int) (s : Srv), ∃ s', forEach leaderPeer ids s = (.ok ⟨⟩, s') ∧ s'.role = s.role ∧
    s'.prevote = s.prevote ∧ s'.params = s.params
  | [], s => ⟨s, rfl, rfl, rfl, rfl⟩
  | i :: ids, s => by
    have h1 : ∃ s1, leaderPeer i s = (.ok ⟨⟩, s1) ∧ s1.role = s.role ∧ s1.prevote = s.prevote ∧ s1.params = s.params := ⟨_, rfl, rfl, rfl, rfl⟩
    obtain ⟨s1, h2, h3, h4, h5⟩ := h1
    obtain ⟨s', h6, h7, h8, h9⟩ := nb_leaderPeers ids s1
    refine ⟨s', ?_, h7.trans h3, h8.trans h4, h9.trans h5⟩
    unfold forEach
    rw [run_bind_ok h2]
    exact h6
theorem nb_initialConf  : Pres NoBeat (initialConf) := by
  unfold initialConf
  pres noBeatPo using nb_logAppend
  all_goals nb
theorem nb_becomeLeader : Pres NoBeat becomeLeader := by
  intro s
  have hk : Pres NoBeat (do
      initialConf
      emit (.event .becomeLeader)
      requestAppendAll : R Unit) := by
    pres noBeatPo using nb_initialConf, nb_emit, nb_requestAppendAll
    all_goals nb
  have h0 : ∃ s0 : Srv, becomeLeader s = (do
      let ids ← peerIds
      forEach leaderPeer ids
      initialConf
      emit (.event .becomeLeader)
      requestAppendAll : R Unit) s0 ∧ s0.role = .leader ∧ s0.prevote = s.prevote ∧ s0.params = s.params := ⟨_, rfl, rfl, rfl, rfl⟩
  obtain ⟨s0, h0, hr, hv, ha⟩ := h0
  rw [h0]
  obtain ⟨s1, h1, h2, h3, h4⟩ := nb_leaderPeers (s0.peers.map Peer.id) s0
  rw [run_bind_ok (show peerIds s0 = (.ok _, s0) from rfl), run_bind_ok h1]
  refine noBeatPo.trans (fun h => ⟨⟨?_, ?_⟩, fun _ hl => absurd (h2.trans hr) hl⟩) (hk s1)
  · rw [h4, ha]; exact h.1
  · rw [h3, hv]; exact h.2
theorem nb_askVote (ty : MsgType) (id : Int) : Pres NoBeat (askVote ty id) := by
  unfold askVote
  pres noBeatPo using nb_emit, nb_termForLog
  all_goals nb
theorem nb_voteSelf  : Pres NoBeat (voteSelf) := by
  unfold voteSelf
  pres noBeatPo using nb_saveState
  all_goals nb
theorem nb_askForVotes  : Pres NoBeat (askForVotes) := by
  unfold askForVotes
  pres noBeatPo using nb_peerIds, nb_becomeLeader, nb_askVote
  all_goals nb
theorem nb_requestVote  : Pres NoBeat (requestVote) := by
  unfold requestVote
  pres noBeatPo using nb_voteSelf, nb_askForVotes
  all_goals nb
theorem nb_startTerm (s : Srv) (hl : s.role ≠ .leader) : NoBeat s (startTerm s).2 :=
  fun h => ⟨⟨h.1, rfl⟩, fun g _ => g hl⟩
theorem nb_rearm  : Pres NoBeat (rearm) := by
  unfold rearm
  pres noBeatPo using nb_restartElectionTimer
  all_goals nb
theorem nb_becomeCandidate (s : Srv) (hl : s.role ≠ .leader) : NoBeat s (becomeCandidate s).2 := by
  have hk : Pres NoBeat (do requestVote; rearm : R Unit) := by
    pres noBeatPo using nb_requestVote, nb_rearm
  have h1 : ∃ s1, startTerm s = (.ok ⟨⟩, s1) := ⟨_, rfl⟩
  obtain ⟨s1, h1⟩ := h1
  have h2 := nb_startTerm s hl
  rw [h1] at h2
  unfold becomeCandidate
  rw [run_bind_ok h1]
  exact noBeatPo.trans h2 (hk s1)
theorem nb_leaveConfig  : Pres NoBeat (leaveConfig) := by
  unfold leaveConfig
  pres noBeatPo using nb_emit
  all_goals nb
theorem nb_handleElectionTimeout : Pres NoBeat handleElectionTimeout := by
  intro s
  have h0 : NoBeat s { s with armed := false } := nb_same rfl rfl rfl rfl
  refine noBeatPo.trans h0 ?_
  have e : handleElectionTimeout s = handleElectionTimeout { s with armed := false } := rfl
  rw [e]
  generalize { s with armed := false } = s1
  unfold handleElectionTimeout
  rw [bind_modify, bind_get]
  refine noBeatPo.trans (show NoBeat s1 { s1 with armed := false } from nb_same rfl rfl rfl rfl) ?_
  generalize { s1 with armed := false } = s2
  by_cases c1 : 0 < s2.stepsToDown
  · rw [if_pos c1]
    have hk : Pres NoBeat (do
        modify fun s => { s with stepsToDown := s.stepsToDown - 1 }
        if s2.stepsToDown - 1 = 0 then do
          leaveConfig
          die (-1)
        else restartElectionTimer : R Unit) := by
      pres noBeatPo using nb_leaveConfig, nb_die, nb_restartElectionTimer
      all_goals nb
    exact hk s2
  rw [if_neg c1]
  by_cases c2 : s2.catchingUp = true
  · rw [if_pos c2]; exact nb_restartElectionTimer s2
  rw [if_neg c2]
  by_cases c3 : s2.role = .leader
  · rw [if_pos c3]; exact nb_die _ s2
  rw [if_neg c3]
  by_cases c4 : s2.params.prevote = true ∧ s2.role = .follower
  · intro h
    rw [h.1] at c4
    exact absurd c4.1 Bool.false_ne_true
  · rw [if_neg c4]; exact nb_becomeCandidate s2 c3
theorem nb_handleHbTimeout (r : PeerRef) : Pres NoBeat (handleHbTimeout r) := by
  unfold handleHbTimeout
  pres noBeatPo using nb_disarm, nb_requestAppend, nb_arm
theorem nb_skipSame (idx : Nat) (es : List Entry) : Pres NoBeat (skipSame idx es) := by
  induction es generalizing idx with
  | nil => exact pres_pure noBeatPo _
  | cons e es ih =>
    unfold skipSame
    pres noBeatPo using nb_termAt, ih
    all_goals nb
theorem nb_rollbackOld (idx : Nat) : Pres NoBeat (rollbackOld idx) := by
  unfold rollbackOld
  pres noBeatPo using nb_emit, nb_entryAt
  all_goals nb
theorem nb_noteNew (idx : Nat) (e : Entry) : Pres NoBeat (noteNew idx e) := by
  unfold noteNew
  pres noBeatPo using nb_emit
  all_goals nb
theorem nb_overwriteOld (idx : Nat) (es : List Entry) : Pres NoBeat (overwriteOld idx es) := by
  induction es generalizing idx with
  | nil => exact pres_pure noBeatPo _
  | cons e es ih =>
    unfold overwriteOld
    pres noBeatPo using nb_rollbackOld, nb_noteNew, nb_logWriteAt, nb_emit, ih
    all_goals nb
theorem nb_appendNew (es : List Entry) : Pres NoBeat (appendNew es) := by
  induction es with
  | nil => exact pres_pure noBeatPo _
  | cons e es ih =>
    unfold appendNew
    pres noBeatPo using nb_logAppend, nb_noteNew, nb_emit, ih
    all_goals nb
theorem nb_storeEntries (req : Req) : Pres NoBeat (storeEntries req) := by
  unfold storeEntries
  pres noBeatPo using nb_skipSame, nb_overwriteOld, nb_appendNew
  all_goals nb
theorem nb_hearLeader (req : Req) : Pres NoBeat (hearLeader req) := by
  unfold hearLeader
  pres noBeatPo using nb_die, nb_restartElectionTimer, nb_becomeFollower
  all_goals nb
theorem nb_logOkay (req : Req) : Pres NoBeat (logOkay req) := by
  unfold logOkay
  pres noBeatPo using nb_termForLog
  all_goals nb
theorem nb_handleAppendEntries (req : Req) : Pres NoBeat (handleAppendEntries req) := by
  unfold handleAppendEntries
  pres noBeatPo using nb_commit, nb_storeEntries, nb_hearLeader, nb_logOkay
  all_goals nb
theorem nb_handleVoteReq (req : Req) : Pres NoBeat (handleVoteReq req) := by
  unfold handleVoteReq
  pres noBeatPo using nb_saveState
  all_goals nb
theorem nb_handlePrevoteReq (req : Req) : Pres NoBeat (handlePrevoteReq req) := by
  unfold handlePrevoteReq
  pres noBeatPo using nb_emit
  all_goals nb
theorem nb_isLeader  : Pres NoBeat (isLeader) := by
  unfold isLeader
  pres noBeatPo using nb_emit
  all_goals nb
theorem nb_appendClient (es : List Entry) : Pres NoBeat (appendClient es) := by
  induction es with
  | nil => exact pres_pure noBeatPo _
  | cons e es ih =>
    unfold appendClient
    pres noBeatPo using nb_logAppend, nb_noteNew, nb_emit, ih
    all_goals nb
theorem nb_handleCliReq (req : Req) : Pres NoBeat (handleCliReq req) := by
  unfold handleCliReq
  pres noBeatPo using nb_requestAppendAll, nb_isLeader, nb_appendClient
  all_goals nb
theorem nb_addPeer (c : SrvCfg) : Pres NoBeat (addPeer c) := by
  unfold addPeer
  intro s
  rw [bind_modify, bind_get]
  have h0 : NoBeat s (if (s.findPeer c.id).isSome then s else
      { s with peers := s.peers ++ [{ cfg := c, nextIdx := s.log.next, hbInterval := s.params.hbInterval }] }) := by
    split
    · exact noBeatPo.refl s
    · refine fun h => ⟨h, fun g hl p hp => ?_⟩
      rcases List.mem_append.1 hp with hp | hp
      · exact g hl p hp
      · rw [List.mem_singleton.1 hp]; exact ⟨rfl, rfl⟩
  refine noBeatPo.trans h0 ?_
  generalize (if (s.findPeer c.id).isSome then s else
      { s with peers := s.peers ++ [{ cfg := c, nextIdx := s.log.next, hbInterval := s.params.hbInterval }] }) = s1
  by_cases hl : s1.role = .leader
  · rw [if_pos hl]
    rw [run_bind_ok (show enableHb (.member c.id) s1 = (.ok ⟨⟩, s1.setPeer (.member c.id) fun p =>
      { p with hbEnabled := true, hbInterval := s1.params.hbInterval, hbArmed := true }) from rfl)]
    have h1 : NoBeat s1 (s1.setPeer (.member c.id) fun p =>
        { p with hbEnabled := true, hbInterval := s1.params.hbInterval, hbArmed := true }) :=
      fun h => ⟨h, fun _ hn => absurd hl hn⟩
    have hk : Pres NoBeat (match s1.srvToJoin with
      | some j =>
        if j.id = c.id then do
          modPeer (.member c.id) fun p => { p with nextIdx := j.nextIdx }
          modify fun s => { s with srvToJoin := none }
        else pure ()
      | none => pure () : R Unit) := by
      pres noBeatPo using nb_modPeer
      all_goals nb
    exact noBeatPo.trans h1 (hk _)
  · rw [if_neg hl]
    exact noBeatPo.refl s1
theorem nb_removePeer (c : Config) (id : Int) : Pres NoBeat (removePeer c id) := by
  unfold removePeer
  pres noBeatPo using nb_emit, nb_die
  all_goals nb
theorem nb_reconfigure (c : Config) : Pres NoBeat (reconfigure c) := by
  unfold reconfigure
  pres noBeatPo using nb_addPeer, nb_removePeer
  all_goals nb
theorem nb_installSnapshot (snp : Snap) : Pres NoBeat (installSnapshot snp) := by
  unfold installSnapshot
  pres noBeatPo using nb_emit, nb_die, nb_saveState, nb_logCompact, nb_restartElectionTimer, nb_stopElectionTimer, nb_reconfigure
  all_goals nb
theorem nb_handleSnapshotSync (q : SnpSync) : Pres NoBeat (handleSnapshotSync q) := by
  unfold handleSnapshotSync
  pres noBeatPo using nb_emit, nb_die, nb_installSnapshot
  all_goals nb
theorem nb_hearSnapshotLeader (req : Req) : Pres NoBeat (hearSnapshotLeader req) := by
  unfold hearSnapshotLeader
  pres noBeatPo using nb_die, nb_restartElectionTimer, nb_becomeFollower
  all_goals nb
theorem nb_handleInstallSnapshot (req : Req) : Pres NoBeat (handleInstallSnapshot req) := by
  unfold handleInstallSnapshot
  pres noBeatPo using nb_handleSnapshotSync, nb_hearSnapshotLeader
  all_goals nb
theorem nb_handleRmSrv (req : Req) : Pres NoBeat (handleRmSrv req) := by
  unfold handleRmSrv
  pres noBeatPo using nb_emit
  all_goals nb
theorem nb_inviteSrv  : Pres NoBeat (inviteSrv) := by
  unfold inviteSrv
  pres noBeatPo using nb_emit, nb_getPeer
  all_goals nb
theorem nb_handleAddSrv (req : Req) : Pres NoBeat (handleAddSrv req) := by
  unfold handleAddSrv
  pres noBeatPo using nb_inviteSrv
  all_goals nb
theorem nb_handleLogSync (req : Req) : Pres NoBeat (handleLogSync req) := by
  unfold handleLogSync
  pres noBeatPo using nb_logApplyPack, nb_commit
  all_goals nb
theorem nb_handleLeave (req : Req) : Pres NoBeat (handleLeave req) := by
  unfold handleLeave
  pres noBeatPo using nb_emit
  all_goals nb
theorem nb_hearTerm (req : Req) : Pres NoBeat (hearTerm req) := by
  unfold hearTerm
  pres noBeatPo using nb_updateTerm
  all_goals nb
theorem nb_acceptedResp (resp : Resp) : Pres NoBeat (acceptedResp resp) := by
  unfold acceptedResp
  pres noBeatPo using nb_modPeer, nb_getPeer, nb_commit
  all_goals nb
theorem nb_refusedResp (resp : Resp) : Pres NoBeat (refusedResp resp) := by
  unfold refusedResp
  pres noBeatPo using nb_modPeer
  all_goals nb
theorem nb_handleAppendResp (resp : Resp) : Pres NoBeat (handleAppendResp resp) := by
  unfold handleAppendResp
  pres noBeatPo using nb_requestAppendTo, nb_acceptedResp, nb_refusedResp
  all_goals nb
theorem nb_acceptedSnpResp (resp : Resp) : Pres NoBeat (acceptedSnpResp resp) := by
  unfold acceptedSnpResp
  pres noBeatPo using nb_modPeer, nb_getPeer
  all_goals nb
theorem nb_handleSnpResp (resp : Resp) : Pres NoBeat (handleSnpResp resp) := by
  unfold handleSnpResp
  pres noBeatPo using nb_requestAppendTo, nb_acceptedSnpResp
  all_goals nb
theorem nb_handleVotingResp (resp : Resp) : Pres NoBeat (handleVotingResp resp) := by
  unfold handleVotingResp
  pres noBeatPo using nb_becomeLeader
  all_goals nb
theorem nb_dispatchResp (resp : Resp) : Pres NoBeat (dispatchResp resp) := by
  unfold dispatchResp
  pres noBeatPo using nb_die, nb_handleAppendResp, nb_handleSnpResp, nb_handleVotingResp
  all_goals nb
theorem nb_handlePeerResp (resp : Resp) : Pres NoBeat (handlePeerResp resp) := by
  unfold handlePeerResp
  pres noBeatPo using nb_modPeer, nb_updateTerm, nb_dispatchResp
  all_goals nb
theorem nb_handlePrevoteResp (resp : Resp) : Pres NoBeat (handlePrevoteResp resp) := by
  intro s h
  have e : handlePrevoteResp resp s = (.ok ⟨⟩, s) := by
    unfold handlePrevoteResp
    rw [bind_get, h.2]
    rfl
  rw [e]
  exact ⟨h, fun g => g⟩
theorem nb_addToConfig  : Pres NoBeat (addToConfig) := by
  unfold addToConfig
  pres noBeatPo using nb_logAppend, nb_requestAppendAll
  all_goals nb
theorem nb_syncLogToNewSrv (i : Nat) : Pres NoBeat (syncLogToNewSrv i) := by
  unfold syncLogToNewSrv
  pres noBeatPo using nb_addToConfig, nb_createSyncSnapshotReq, nb_emit, nb_getPeer
  all_goals nb
theorem nb_rmSrvFromCluster (id : Int) : Pres NoBeat (rmSrvFromCluster id) := by
  unfold rmSrvFromCluster
  pres noBeatPo using nb_logAppend, nb_requestAppendAll
  all_goals nb
theorem nb_handleExtSnpResp (resp : Resp) : Pres NoBeat (handleExtSnpResp resp) := by
  unfold handleExtSnpResp
  pres noBeatPo using nb_die, nb_modPeer, nb_getPeer, nb_syncLogToNewSrv
  all_goals nb
theorem nb_handleExtResp (resp : Resp) : Pres NoBeat (handleExtResp resp) := by
  unfold handleExtResp
  pres noBeatPo using nb_die, nb_modPeer, nb_handlePrevoteResp, nb_syncLogToNewSrv, nb_rmSrvFromCluster, nb_handleExtSnpResp
  all_goals nb
theorem nb_forceRemove (id : Int) : Pres NoBeat (forceRemove id) := by
  unfold forceRemove
  pres noBeatPo using nb_rmSrvFromCluster
  all_goals nb
theorem nb_handleExtErr (req : Req) : Pres NoBeat (handleExtErr req) := by
  unfold handleExtErr
  pres noBeatPo using nb_modPeer, nb_forceRemove
  all_goals nb
theorem nb_rpcResult (r : PeerRef) (ty : MsgType) (ok : Bool) : Pres NoBeat (rpcResult r ty ok) := by
  unfold rpcResult
  pres noBeatPo using nb_modPeer
  all_goals nb
theorem nb_commitConf (c : Config) : Pres NoBeat (commitConf c) := by
  unfold commitConf
  pres noBeatPo using nb_emit, nb_reconfigure
  all_goals nb
theorem nb_findConf (idx n : Nat) (c : Config) : Pres NoBeat (findConf idx n c) := by
  induction n generalizing c with
  | zero => exact pres_throw noBeatPo _
  | succ n ih =>
    unfold findConf
    pres noBeatPo using nb_entryAt, nb_die, ih
    all_goals nb
theorem nb_confForSnap (idx : Nat) : Pres NoBeat (confForSnap idx) := by
  unfold confForSnap
  pres noBeatPo using nb_die, nb_findConf
  all_goals nb
theorem nb_startSnapshot (idx : Nat) : Pres NoBeat (startSnapshot idx) := by
  unfold startSnapshot
  pres noBeatPo using nb_emit, nb_termAt, nb_confForSnap
  all_goals nb
theorem nb_snapshotAndCompact (idx : Nat) : Pres NoBeat (snapshotAndCompact idx) := by
  unfold snapshotAndCompact
  pres noBeatPo using nb_startSnapshot
  all_goals nb
theorem nb_keepSnap (snp : Snap) : Pres NoBeat (keepSnap snp) := by
  unfold keepSnap
  pres noBeatPo using nb_emit
  all_goals nb
theorem nb_onSnapshotCompleted (snp : Snap) (ok : Bool) : Pres NoBeat (onSnapshotCompleted snp ok) := by
  unfold onSnapshotCompleted
  pres noBeatPo using nb_logCompact
  all_goals nb
theorem nb_applyEntry (i : Nat) (e : Entry) : Pres NoBeat (applyEntry i e) := by
  unfold applyEntry
  pres noBeatPo using nb_emit, nb_commitConf
  all_goals nb
theorem nb_applyOne  : Pres NoBeat (applyOne) := by
  unfold applyOne
  pres noBeatPo using nb_entryToApply, nb_snapshotAndCompact, nb_applyEntry
  all_goals nb
theorem nb_replicateLog (data : Nat) : Pres NoBeat (replicateLog data) := by
  unfold replicateLog
  pres noBeatPo using nb_logAppend, nb_requestAppendAll, nb_isLeader
  all_goals nb

theorem nb_dispatch (r : Req) (hr : r.type ≠ .joinReq) : Pres NoBeat (dispatch r) := by
  unfold dispatch handleExtended
  pres noBeatPo using nb_handleAppendEntries, nb_handleVoteReq, nb_handleCliReq, nb_handleAddSrv, nb_handleRmSrv, nb_handleLogSync,
    nb_handlePrevoteReq, nb_die, nb_handleInstallSnapshot, nb_handleLeave
  all_goals exact absurd (by assumption) hr


/-- Every input but invitations. -/
theorem nb_run {x : Input} (hj : ∀ r, x = .req r → r.type ≠ .joinReq) : Pres NoBeat x.run := by
  intro s
  cases x with
  | req r =>
    show NoBeat s ((processReq r >>= fun resp => emit (.reply resp)) s).2
    unfold processReq
    exact pres_bind noBeatPo (pres_bind noBeatPo (nb_hearTerm r) fun _ => nb_dispatch r (hj r rfl)) (fun q => nb_emit _) s
  | peerResp ty r => exact pres_bind noBeatPo (nb_rpcResult _ _ _) (fun _ => nb_handlePeerResp r) s
  | extResp p ty r => exact pres_bind noBeatPo (nb_rpcResult _ _ _) (fun _ => nb_handleExtResp r) s
  | peerErr r => exact nb_rpcResult _ _ _ s
  | extErr p r => exact pres_bind noBeatPo (nb_rpcResult _ _ _) (fun _ => nb_handleExtErr r) s
  | retry r =>
    show NoBeat s (retryReq r s).2
    unfold retryReq
    split
    · exact nb_emit _ s
    · exact noBeatPo.refl s
  | electionTimeout => exact nb_handleElectionTimeout s
  | hbTimeout id => exact nb_handleHbTimeout _ s
  | apply => exact nb_applyOne s
  | snapDone q ok =>
    exact pres_ite (pres_bind noBeatPo (nb_keepSnap q) fun _ => nb_onSnapshotCompleted q true) (nb_onSnapshotCompleted q false) s
  | replicate d => exact pres_bind noBeatPo (nb_replicateLog d) (fun _ => pres_pure noBeatPo _) s
  | tick n => exact nb_same rfl rfl rfl rfl

end Cs.Raft
