import Verif.Raft.Pres
import Verif.Raft.Frame
import Verif.Raft.Steps
import Verif.Raft.Spec

/-!
# Heartbeat timers

`Beat`: if all heartbeat timers of a leader run, then this remains so; if all those of a follower rest, then this remains so.
-/

set_option linter.unusedSectionVars false

namespace Cs.Raft
open Cs

/-- The heartbeat of a peer is enabled and its timer runs, unless it is one of `K`. -/
def Peer.Beating (K : Int → Prop) (p : Peer) : Prop := p.hbEnabled = true ∧ (p.hbArmed = true ∨ K p.id)
/-- The heartbeat of a peer is disabled and its timer does not run. -/
def Peer.Resting (p : Peer) : Prop := p.hbEnabled = false ∧ p.hbArmed = false
/-- A leader has a running timer for each peer, but perhaps not for those of `K`. -/
def Srv.BeatBut (K : Int → Prop) (s : Srv) : Prop := s.role = .leader → ∀ p ∈ s.peers, p.Beating K
/-- A follower has none. -/
def Srv.Silenced (s : Srv) : Prop := s.role = .follower → ∀ p ∈ s.peers, p.Resting

/-- See above. -/
def Beat (s s' : Srv) : Prop := (∀ K, s.BeatBut K → s'.BeatBut K) ∧ (s.Silenced → s'.Silenced)

theorem beatPo : PO Beat := ⟨fun _ => ⟨fun _ h => h, fun h => h⟩, fun h1 h2 => ⟨fun K h => h2.1 K (h1.1 K h), fun h => h2.2 (h1.2 h)⟩⟩
theorem onPo {K : Int → Prop} : PO (fun s s' : Srv => s.BeatBut K → s'.BeatBut K) := ⟨fun _ h => h, fun h1 h2 h => h2 (h1 h)⟩
theorem offPo : PO (fun s s' : Srv => s.Silenced → s'.Silenced) := ⟨fun _ h => h, fun h1 h2 h => h2 (h1 h)⟩
theorem on_of {K : Int → Prop} {α : Type} {m : R α} (h : Pres Beat m) : Pres (fun s s' => s.BeatBut K → s'.BeatBut K) m := fun s => (h s).1 K
theorem off_of {α : Type} {m : R α} (h : Pres Beat m) : Pres (fun s s' => s.Silenced → s'.Silenced) m := fun s => (h s).2

theorem bt_sub {s s' : Srv} (h : s'.role = s.role ∨ s'.role = .candidate)
    (h2 : ∀ p' ∈ s'.peers, ∃ p ∈ s.peers, p'.id = p.id ∧ p'.hbEnabled = p.hbEnabled ∧ p'.hbArmed = p.hbArmed) : Beat s s' := by
  refine ⟨fun K g hl p' hp => ?_, fun g hl p' hp => ?_⟩
  · obtain ⟨p, h3, h6, h4, h5⟩ := h2 p' hp
    have := g (by rcases h with h | h
                  · rw [← h]; exact hl
                  · rw [h] at hl; cases hl) p h3
    exact ⟨h4.trans this.1, this.2.imp (fun h => h5.trans h) (fun h => h6 ▸ h)⟩
  · obtain ⟨p, h3, _, h4, h5⟩ := h2 p' hp
    have := g (by rcases h with h | h
                  · rw [← h]; exact hl
                  · rw [h] at hl; cases hl) p h3
    exact ⟨h4.trans this.1, h5.trans this.2⟩
theorem bt_same {s s' : Srv} (h : s'.role = s.role ∨ s'.role = .candidate) (h2 : s'.peers = s.peers) : Beat s s' :=
  bt_sub h fun p hp => ⟨p, h2 ▸ hp, rfl, rfl, rfl⟩
theorem bt_filter {s : Srv} (f : Peer → Bool) : Beat s { s with peers := s.peers.filter f } :=
  bt_sub (.inl rfl) fun p hp => ⟨p, (List.mem_filter.1 hp).1, rfl, rfl, rfl⟩
theorem bt_some (s : Srv) {i : Int} : ∀ p' ∈ (if s.peers.length = 1 then s.peers.filter fun p => p.id != i else s.peers),
    ∃ p ∈ s.peers, p'.id = p.id ∧ p'.hbEnabled = p.hbEnabled ∧ p'.hbArmed = p.hbArmed := by
  intro p hp
  split at hp
  · exact ⟨p, (List.mem_filter.1 hp).1, rfl, rfl, rfl⟩
  · exact ⟨p, hp, rfl, rfl, rfl⟩
theorem bt_emit (e : Eff) : Pres Beat (emit e) := fun _ => bt_same (.inl rfl) rfl

/-- Changes of peers that keep the timer. -/
def HbTame (f : Peer → Peer) : Prop := ∀ p, (f p).id = p.id ∧ (f p).hbEnabled = p.hbEnabled ∧ (f p).hbArmed = p.hbArmed

theorem bt_modPeer (r : PeerRef) (f : Peer → Peer) (hf : HbTame f) : Pres Beat (modPeer r f) := fun s => by
  refine bt_sub (.inl (by cases r <;> rfl)) fun p' hp => ?_
  cases r with
  | member i =>
    obtain ⟨p, h0, rfl⟩ := List.mem_map.1 hp
    refine ⟨p, h0, ?_⟩
    split
    · exact hf p
    · exact ⟨rfl, rfl, rfl⟩
  | joining => exact ⟨p', hp, rfl, rfl, rfl⟩

/-- The primitive updates. -/
macro "bt" : tactic => `(tactic| first
  | rfl
  | (exact fun _ => ⟨rfl, rfl, rfl⟩)
  | (exact fun _ => bt_same (.inl rfl) rfl)
  | (exact fun _ => bt_same (.inr rfl) rfl)
  | (exact fun _ => bt_filter _)
  | (exact bt_same (.inl rfl) rfl)
  | (intro _; dsimp only; split <;> exact ⟨rfl, rfl, rfl⟩)
  | (intro _; dsimp only; split <;> first | exact ⟨rfl, rfl, rfl⟩ | (split <;> exact ⟨rfl, rfl, rfl⟩))
  | (intro s; exact bt_sub (.inl rfl) (bt_some s))
  | skip)

/-- Lines 377-396 of `handle_hb_timeout`, raft_server.cxx. -/
def handleHbRest (r : PeerRef) : R Unit := do
  let s ← get
  if s.role = .leader then do
    let _ ← requestAppend r
    modPeer r fun p => if p.hbEnabled then { p with hbArmed := true } else p
  else pure ()

theorem off_arm (r : PeerRef) : Pres (fun s s' : Srv => s.Silenced → s'.Silenced)
    (modPeer r fun p => if p.hbEnabled then { p with hbArmed := true } else p) := by
  intro s h hf p hp
  rcases r with i | _
  · obtain ⟨p0, h0, rfl⟩ := List.mem_map.1 hp
    have := h hf p0 h0
    split
    · show (if p0.hbEnabled = true then { p0 with hbArmed := true } else p0).Resting
      rw [if_neg (by rw [this.1]; exact Bool.false_ne_true)]; exact this
    · exact this
  · exact h hf p hp

theorem bt_die {α : Type} (c : Int) : Pres Beat (die c : R α) := by
  unfold die
  pres beatPo using bt_emit
  all_goals bt
theorem bt_saveState  : Pres Beat (saveState) := by
  unfold saveState
  pres beatPo using bt_emit
  all_goals bt
theorem bt_getPeer (r : PeerRef) : Pres Beat (getPeer r) := by
  unfold getPeer
  pres beatPo using bt_emit
  all_goals bt
theorem bt_peerIds  : Pres Beat (peerIds) := by
  unfold peerIds
  pres beatPo using bt_emit
  all_goals bt
theorem bt_logAppend (e : Entry) : Pres Beat (logAppend e) := by
  unfold logAppend
  pres beatPo using bt_emit
  all_goals bt
theorem bt_logWriteAt (i : Nat) (e : Entry) : Pres Beat (logWriteAt i e) := by
  unfold logWriteAt
  pres beatPo using bt_emit
  all_goals bt
theorem bt_termAt (i : Nat) : Pres Beat (termAt i) := by
  unfold termAt
  pres beatPo using bt_emit
  all_goals bt
theorem bt_entryAt (i : Nat) : Pres Beat (entryAt i) := by
  unfold entryAt
  pres beatPo using bt_emit
  all_goals bt
theorem bt_entryToApply (i : Nat) : Pres Beat (entryToApply i) := by
  unfold entryToApply
  pres beatPo using bt_die
  all_goals bt
theorem bt_logApplyPack (i : Nat) (es : List Entry) : Pres Beat (logApplyPack i es) := by
  unfold logApplyPack
  pres beatPo using bt_emit
  all_goals bt
theorem bt_logCompact (i : Nat) : Pres Beat (logCompact i) := by
  unfold logCompact
  pres beatPo using bt_emit
  all_goals bt
theorem bt_termForLog (i : Nat) : Pres Beat (termForLog i) := by
  unfold termForLog
  pres beatPo using bt_die, bt_termAt
  all_goals bt
theorem bt_restartElectionTimer  : Pres Beat (restartElectionTimer) := by
  unfold restartElectionTimer
  pres beatPo using bt_emit
  all_goals bt
theorem bt_stopElectionTimer  : Pres Beat (stopElectionTimer) := by
  unfold stopElectionTimer
  pres beatPo using bt_emit
  all_goals bt
theorem bt_becomeFollower : Pres Beat becomeFollower := by
  intro s
  rw [run_becomeFollower]
  refine ⟨fun _ _ h => (by cases h), fun _ _ p hp => ?_⟩
  obtain ⟨p0, _, rfl⟩ := List.mem_map.1 hp
  exact ⟨rfl, rfl⟩
theorem bt_updateTerm (term : Nat) : Pres Beat (updateTerm term) := by
  unfold updateTerm
  pres beatPo using bt_saveState, bt_becomeFollower
  all_goals bt
theorem bt_chooseSnap (r : PeerRef) (lastIdx : Nat) : Pres Beat (chooseSnap r lastIdx) := by
  unfold chooseSnap
  pres beatPo using bt_die, bt_modPeer, bt_getPeer
  all_goals bt
theorem bt_createSyncSnapshotReq (r : PeerRef) (lastIdx term commitIdx : Nat) : Pres Beat (createSyncSnapshotReq r lastIdx term commitIdx) := by
  unfold createSyncSnapshotReq
  pres beatPo using bt_die, bt_getPeer, bt_chooseSnap
  all_goals bt
theorem bt_entriesFrom (last : Nat) : Pres Beat (entriesFrom last) := by
  unfold entriesFrom
  pres beatPo using bt_emit
  all_goals bt
theorem bt_appendReqFrom (r : PeerRef) (last : Nat) : Pres Beat (appendReqFrom r last) := by
  unfold appendReqFrom
  pres beatPo using bt_getPeer, bt_termForLog, bt_entriesFrom
  all_goals bt
theorem bt_createAppendReq (r : PeerRef) : Pres Beat (createAppendReq r) := by
  unfold createAppendReq
  pres beatPo using bt_die, bt_modPeer, bt_getPeer, bt_createSyncSnapshotReq, bt_appendReqFrom
  all_goals bt
theorem bt_requestAppend (r : PeerRef) : Pres Beat (requestAppend r) := by
  unfold requestAppend
  pres beatPo using bt_getPeer, bt_modPeer, bt_createAppendReq, bt_emit
  all_goals bt
theorem bt_commitNotify (id : Int) : Pres Beat (commitNotify id) := by
  unfold commitNotify
  pres beatPo using bt_modPeer, bt_requestAppend
  all_goals bt
theorem bt_commit (target : Nat) : Pres Beat (commit target) := by
  unfold commit
  pres beatPo using bt_emit, bt_peerIds, bt_commitNotify
  all_goals bt
theorem bt_requestAppendTo (id : Int) : Pres Beat (requestAppendTo id) := by
  unfold requestAppendTo
  pres beatPo using bt_requestAppend
  all_goals bt
theorem bt_requestAppendAll  : Pres Beat (requestAppendAll) := by
  unfold requestAppendAll
  pres beatPo using bt_peerIds, bt_commit, bt_requestAppendTo
  all_goals bt
/-- The loop of `become_leader`. -/
theorem bt_leaderPeers (K : Int → Prop) : ∀ (ids : List Int) (s : Srv), (∀ p ∈ s.peers, p.Beating K ∨ p.id ∈ ids) →
    ∃ s', forEach leaderPeer ids s = (.ok ⟨⟩, s') ∧ s'.role = s.role ∧ ∀ p ∈ s'.peers, p.Beating K
  | [], s, h => ⟨s, rfl, rfl, fun p hp => (h p hp).elim (fun h => h) fun h => (by cases h)⟩
  | i :: ids, s, h => by
    have h1 : ∃ s1, leaderPeer i s = (.ok ⟨⟩, s1) ∧ s1.role = s.role ∧ ∀ p ∈ s1.peers, p.Beating K ∨ p.id ∈ ids := by
      refine ⟨_, rfl, rfl, fun p hp => ?_⟩
      obtain ⟨p1, h1, rfl⟩ := List.mem_map.1 hp
      obtain ⟨p0, h0, rfl⟩ := List.mem_map.1 h1
      by_cases c : (p0.id == i) = true
      · rw [if_pos c]
        have c2 : (Peer.id { p0 with nextIdx := s.log.next, snpCtx := none, busy := false } == i) = true := c
        rw [if_pos c2]
        exact .inl ⟨rfl, .inl rfl⟩
      · rw [if_neg c, if_neg c]
        rcases h p0 h0 with h | h
        · exact .inl h
        · rcases List.mem_cons.1 h with h | h
          · rw [h] at c; simp at c
          · exact .inr h
    obtain ⟨s1, h2, h3, h4⟩ := h1
    obtain ⟨s', h5, h6, h7⟩ := bt_leaderPeers K ids s1 h4
    refine ⟨s', ?_, h6.trans h3, h7⟩
    unfold forEach
    rw [run_bind_ok h2]
    exact h5
theorem bt_initialConf  : Pres Beat (initialConf) := by
  unfold initialConf
  pres beatPo using bt_logAppend
  all_goals bt
theorem bt_becomeLeader : Pres Beat becomeLeader := by
  intro s
  have hk : Pres Beat (do
      initialConf
      emit (.event .becomeLeader)
      requestAppendAll : R Unit) := by
    pres beatPo using bt_initialConf, bt_emit, bt_requestAppendAll
    all_goals bt
  have h0 : ∃ s0 : Srv, s0.role = .leader ∧ becomeLeader s = (do
      let ids ← peerIds
      forEach leaderPeer ids
      initialConf
      emit (.event .becomeLeader)
      requestAppendAll : R Unit) s0 := ⟨_, rfl, rfl⟩
  obtain ⟨s0, hr, h0⟩ := h0
  rw [h0]
  obtain ⟨s1, h1, h2, h3⟩ := bt_leaderPeers (fun _ => False) (s0.peers.map Peer.id) s0 fun p hp => .inr (List.mem_map_of_mem hp)
  rw [run_bind_ok (show peerIds s0 = (.ok _, s0) from rfl), run_bind_ok h1]
  refine beatPo.trans ⟨fun K _ _ p hp => ⟨(h3 p hp).1, (h3 p hp).2.imp (fun h => h) False.elim⟩, fun _ h => ?_⟩ (hk s1)
  rw [h2, hr] at h
  cases h
theorem bt_askVote (ty : MsgType) (id : Int) : Pres Beat (askVote ty id) := by
  unfold askVote
  pres beatPo using bt_emit, bt_termForLog
  all_goals bt
theorem bt_voteSelf  : Pres Beat (voteSelf) := by
  unfold voteSelf
  pres beatPo using bt_saveState
  all_goals bt
theorem bt_askForVotes  : Pres Beat (askForVotes) := by
  unfold askForVotes
  pres beatPo using bt_peerIds, bt_becomeLeader, bt_askVote
  all_goals bt
theorem bt_requestVote  : Pres Beat (requestVote) := by
  unfold requestVote
  pres beatPo using bt_voteSelf, bt_askForVotes
  all_goals bt
theorem bt_startTerm  : Pres Beat (startTerm) := by
  unfold startTerm
  pres beatPo using bt_saveState
  all_goals bt
theorem bt_rearm  : Pres Beat (rearm) := by
  unfold rearm
  pres beatPo using bt_restartElectionTimer
  all_goals bt
theorem bt_becomeCandidate  : Pres Beat (becomeCandidate) := by
  unfold becomeCandidate
  pres beatPo using bt_requestVote, bt_startTerm, bt_rearm
  all_goals bt
theorem bt_requestPrevote  : Pres Beat (requestPrevote) := by
  unfold requestPrevote
  pres beatPo using bt_peerIds, bt_askVote, bt_becomeCandidate
  all_goals bt
theorem bt_leaveConfig  : Pres Beat (leaveConfig) := by
  unfold leaveConfig
  pres beatPo using bt_emit
  all_goals bt
theorem bt_handleElectionTimeout  : Pres Beat (handleElectionTimeout) := by
  unfold handleElectionTimeout
  pres beatPo using bt_die, bt_restartElectionTimer, bt_becomeCandidate, bt_requestPrevote, bt_leaveConfig
  all_goals bt
/-- After a heartbeat: followers have no timers. -/
theorem off_handleHbTimeout (r : PeerRef) (s : Srv) (h : s.Silenced) : (handleHbTimeout r s).2.Silenced := by
  have hk : ∀ s1 : Srv, s1.Silenced → (handleHbRest r s1).2.Silenced := by
    intro s1 h1
    have hp : Pres (fun s s' => s.Silenced → s'.Silenced) (handleHbRest r) := by
      unfold handleHbRest
      pres offPo using (off_of (bt_requestAppend r)), off_arm
    exact hp s1 h1
  refine hk _ ?_
  intro hf p hp
  rcases r with i | _
  · obtain ⟨p0, h0, rfl⟩ := List.mem_map.1 hp
    have := h hf p0 h0
    split
    · exact ⟨this.1, rfl⟩
    · exact this
  · exact h hf p hp

/-- After a heartbeat: if the handler ended by an exception, then the timer may have stopped. -/
theorem on_handleHbTimeout {K : Int → Prop} (i : Int) (s : Srv) (h : s.BeatBut K) (hk : ∀ e, (handleHbTimeout (.member i) s).1 = .error e → K i) :
    (handleHbTimeout (.member i) s).2.BeatBut K := by
  have e0 : handleHbTimeout (.member i) s = handleHbRest (.member i) (s.setPeer (.member i) fun p => { p with hbArmed := false }) := rfl
  rw [e0] at hk ⊢
  have h0 : (s.setPeer (.member i) fun p => { p with hbArmed := false }).BeatBut (fun j => K j ∨ j = i) := by
    intro hl p hp
    obtain ⟨p0, h0, rfl⟩ := List.mem_map.1 hp
    have := h hl p0 h0
    split
    · next c => exact ⟨this.1, .inr (.inr (show p0.id = i from by simpa using c))⟩
    · exact ⟨this.1, this.2.imp (fun h => h) .inl⟩
  generalize (s.setPeer (.member i) fun p => { p with hbArmed := false }) = s1 at h0 hk ⊢
  unfold handleHbRest at hk ⊢
  rw [bind_get] at hk ⊢
  by_cases hl : s1.role = .leader
  · rw [if_pos hl] at hk ⊢
    have h1 := (bt_requestAppend (.member i) s1).1 _ h0
    rcases hc : requestAppend (.member i) s1 with ⟨e | b, s2⟩
    · rw [run_bind_err hc] at hk ⊢
      rw [hc] at h1
      intro hl2 p hp
      obtain ⟨h3, h4⟩ := h1 hl2 p hp
      exact ⟨h3, h4.imp (fun h => h) fun h => h.elim (fun h => h) fun h => h ▸ hk e rfl⟩
    · rw [run_bind_ok hc] at hk ⊢
      rw [hc] at h1
      intro hl2 p hp
      obtain ⟨p0, h2, rfl⟩ := List.mem_map.1 hp
      obtain ⟨h3, h4⟩ := h1 hl2 p0 h2
      by_cases c : (p0.id == i) = true
      · rw [if_pos c]
        show (if p0.hbEnabled = true then { p0 with hbArmed := true } else p0).Beating _
        rw [if_pos h3]; exact ⟨h3, .inl rfl⟩
      · rw [if_neg c]
        refine ⟨h3, h4.imp (fun h => h) fun h => h.elim (fun h => h) fun h => ?_⟩
        rw [h] at c; simp at c
  · rw [if_neg hl]
    exact fun h => absurd h hl

theorem bt_skipSame (idx : Nat) (es : List Entry) : Pres Beat (skipSame idx es) := by
  induction es generalizing idx with
  | nil => exact pres_pure beatPo _
  | cons e es ih =>
    unfold skipSame
    pres beatPo using bt_termAt, ih
    all_goals bt
theorem bt_rollbackOld (idx : Nat) : Pres Beat (rollbackOld idx) := by
  unfold rollbackOld
  pres beatPo using bt_emit, bt_entryAt
  all_goals bt
theorem bt_noteNew (idx : Nat) (e : Entry) : Pres Beat (noteNew idx e) := by
  unfold noteNew
  pres beatPo using bt_emit
  all_goals bt
theorem bt_overwriteOld (idx : Nat) (es : List Entry) : Pres Beat (overwriteOld idx es) := by
  induction es generalizing idx with
  | nil => exact pres_pure beatPo _
  | cons e es ih =>
    unfold overwriteOld
    pres beatPo using bt_rollbackOld, bt_noteNew, bt_logWriteAt, bt_emit, ih
    all_goals bt
theorem bt_appendNew (es : List Entry) : Pres Beat (appendNew es) := by
  induction es with
  | nil => exact pres_pure beatPo _
  | cons e es ih =>
    unfold appendNew
    pres beatPo using bt_logAppend, bt_noteNew, bt_emit, ih
    all_goals bt
theorem bt_storeEntries (req : Req) : Pres Beat (storeEntries req) := by
  unfold storeEntries
  pres beatPo using bt_skipSame, bt_overwriteOld, bt_appendNew
  all_goals bt
theorem bt_hearLeader (req : Req) : Pres Beat (hearLeader req) := by
  unfold hearLeader
  pres beatPo using bt_die, bt_restartElectionTimer, bt_becomeFollower
  all_goals bt
theorem bt_logOkay (req : Req) : Pres Beat (logOkay req) := by
  unfold logOkay
  pres beatPo using bt_termForLog
  all_goals bt
theorem bt_handleAppendEntries (req : Req) : Pres Beat (handleAppendEntries req) := by
  unfold handleAppendEntries
  pres beatPo using bt_commit, bt_storeEntries, bt_hearLeader, bt_logOkay
  all_goals bt
theorem bt_handleVoteReq (req : Req) : Pres Beat (handleVoteReq req) := by
  unfold handleVoteReq
  pres beatPo using bt_saveState
  all_goals bt
theorem bt_handlePrevoteReq (req : Req) : Pres Beat (handlePrevoteReq req) := by
  unfold handlePrevoteReq
  pres beatPo using bt_emit
  all_goals bt
theorem bt_isLeader  : Pres Beat (isLeader) := by
  unfold isLeader
  pres beatPo using bt_emit
  all_goals bt
theorem bt_appendClient (es : List Entry) : Pres Beat (appendClient es) := by
  induction es with
  | nil => exact pres_pure beatPo _
  | cons e es ih =>
    unfold appendClient
    pres beatPo using bt_logAppend, bt_noteNew, bt_emit, ih
    all_goals bt
theorem bt_handleCliReq (req : Req) : Pres Beat (handleCliReq req) := by
  unfold handleCliReq
  pres beatPo using bt_requestAppendAll, bt_isLeader, bt_appendClient
  all_goals bt
theorem bt_addPeer (c : SrvCfg) : Pres Beat (addPeer c) := by
  unfold addPeer
  intro s
  rw [bind_modify, bind_get]
  have hp : ∀ p ∈ (if (s.findPeer c.id).isSome then s else
      { s with peers := s.peers ++ [{ cfg := c, nextIdx := s.log.next, hbInterval := s.params.hbInterval }] }).peers,
      p ∈ s.peers ∨ (p.id = c.id ∧ p.Resting) := by
    intro p hp
    split at hp
    · exact .inl hp
    · rcases List.mem_append.1 hp with hp | hp
      · exact .inl hp
      · rw [List.mem_singleton.1 hp]; exact .inr ⟨rfl, rfl, rfl⟩
  have hr : (if (s.findPeer c.id).isSome then s else
      { s with peers := s.peers ++ [{ cfg := c, nextIdx := s.log.next, hbInterval := s.params.hbInterval }] }).role = s.role := by
    split <;> rfl
  generalize (if (s.findPeer c.id).isSome then s else
      { s with peers := s.peers ++ [{ cfg := c, nextIdx := s.log.next, hbInterval := s.params.hbInterval }] }) = s1 at hp hr ⊢
  by_cases hl : s1.role = .leader
  · rw [if_pos hl]
    rw [run_bind_ok (show enableHb (.member c.id) s1 = (.ok ⟨⟩, s1.setPeer (.member c.id) fun p =>
      { p with hbEnabled := true, hbInterval := s1.params.hbInterval, hbArmed := true }) from rfl)]
    have h1 : Beat s (s1.setPeer (.member c.id) fun p =>
        { p with hbEnabled := true, hbInterval := s1.params.hbInterval, hbArmed := true }) := by
      refine ⟨fun K h _ p hq => ?_, fun _ h => ?_⟩
      · obtain ⟨p0, h0, rfl⟩ := List.mem_map.1 hq
        split
        · exact ⟨rfl, .inl rfl⟩
        · next c0 =>
          rcases hp p0 h0 with h2 | h2
          · exact h (hr ▸ hl) p0 h2
          · rw [h2.1] at c0; simp at c0
      · have h : s1.role = .follower := h
        rw [hl] at h; cases h
    have hk : Pres Beat (match s1.srvToJoin with
      | some j =>
        if j.id = c.id then do
          modPeer (.member c.id) fun p => { p with nextIdx := j.nextIdx }
          modify fun s => { s with srvToJoin := none }
        else pure ()
      | none => pure () : R Unit) := by
      pres beatPo using bt_modPeer
      all_goals bt
    exact beatPo.trans h1 (hk _)
  · rw [if_neg hl]
    refine ⟨fun _ _ h => absurd h hl, fun h hf p hq => ?_⟩
    rcases hp p hq with h2 | h2
    · exact h (hr ▸ hf) p h2
    · exact h2.2
theorem bt_removePeer (c : Config) (id : Int) : Pres Beat (removePeer c id) := by
  unfold removePeer
  pres beatPo using bt_emit, bt_die
  all_goals bt
theorem bt_reconfigure (c : Config) : Pres Beat (reconfigure c) := by
  unfold reconfigure
  pres beatPo using bt_addPeer, bt_removePeer
  all_goals bt
theorem bt_installSnapshot (snp : Snap) : Pres Beat (installSnapshot snp) := by
  unfold installSnapshot
  pres beatPo using bt_emit, bt_die, bt_saveState, bt_logCompact, bt_restartElectionTimer, bt_stopElectionTimer, bt_reconfigure
  all_goals bt
theorem bt_handleSnapshotSync (q : SnpSync) : Pres Beat (handleSnapshotSync q) := by
  unfold handleSnapshotSync
  pres beatPo using bt_emit, bt_die, bt_installSnapshot
  all_goals bt
theorem bt_hearSnapshotLeader (req : Req) : Pres Beat (hearSnapshotLeader req) := by
  unfold hearSnapshotLeader
  pres beatPo using bt_die, bt_restartElectionTimer, bt_becomeFollower
  all_goals bt
theorem bt_handleInstallSnapshot (req : Req) : Pres Beat (handleInstallSnapshot req) := by
  unfold handleInstallSnapshot
  pres beatPo using bt_handleSnapshotSync, bt_hearSnapshotLeader
  all_goals bt
theorem bt_handleRmSrv (req : Req) : Pres Beat (handleRmSrv req) := by
  unfold handleRmSrv
  pres beatPo using bt_emit
  all_goals bt
theorem bt_inviteSrv  : Pres Beat (inviteSrv) := by
  unfold inviteSrv
  pres beatPo using bt_emit, bt_getPeer
  all_goals bt
theorem bt_handleAddSrv (req : Req) : Pres Beat (handleAddSrv req) := by
  unfold handleAddSrv
  pres beatPo using bt_inviteSrv
  all_goals bt
theorem bt_handleLogSync (req : Req) : Pres Beat (handleLogSync req) := by
  unfold handleLogSync
  pres beatPo using bt_logApplyPack, bt_commit
  all_goals bt
theorem bt_handleLeave (req : Req) : Pres Beat (handleLeave req) := by
  unfold handleLeave
  pres beatPo using bt_emit
  all_goals bt
theorem bt_hearTerm (req : Req) : Pres Beat (hearTerm req) := by
  unfold hearTerm
  pres beatPo using bt_updateTerm
  all_goals bt
theorem bt_acceptedResp (resp : Resp) : Pres Beat (acceptedResp resp) := by
  unfold acceptedResp
  pres beatPo using bt_modPeer, bt_getPeer, bt_commit
  all_goals bt
theorem bt_refusedResp (resp : Resp) : Pres Beat (refusedResp resp) := by
  unfold refusedResp
  pres beatPo using bt_modPeer
  all_goals bt
theorem bt_handleAppendResp (resp : Resp) : Pres Beat (handleAppendResp resp) := by
  unfold handleAppendResp
  pres beatPo using bt_requestAppendTo, bt_acceptedResp, bt_refusedResp
  all_goals bt
theorem bt_acceptedSnpResp (resp : Resp) : Pres Beat (acceptedSnpResp resp) := by
  unfold acceptedSnpResp
  pres beatPo using bt_modPeer, bt_getPeer
  all_goals bt
theorem bt_handleSnpResp (resp : Resp) : Pres Beat (handleSnpResp resp) := by
  unfold handleSnpResp
  pres beatPo using bt_requestAppendTo, bt_acceptedSnpResp
  all_goals bt
theorem bt_handleVotingResp (resp : Resp) : Pres Beat (handleVotingResp resp) := by
  unfold handleVotingResp
  pres beatPo using bt_becomeLeader
  all_goals bt
theorem bt_dispatchResp (resp : Resp) : Pres Beat (dispatchResp resp) := by
  unfold dispatchResp
  pres beatPo using bt_die, bt_handleAppendResp, bt_handleSnpResp, bt_handleVotingResp
  all_goals bt
theorem bt_handlePeerResp (resp : Resp) : Pres Beat (handlePeerResp resp) := by
  unfold handlePeerResp
  pres beatPo using bt_modPeer, bt_updateTerm, bt_dispatchResp
  all_goals bt
theorem bt_handlePrevoteResp (resp : Resp) : Pres Beat (handlePrevoteResp resp) := by
  unfold handlePrevoteResp
  pres beatPo using bt_restartElectionTimer, bt_becomeCandidate
  all_goals bt
theorem bt_addToConfig  : Pres Beat (addToConfig) := by
  unfold addToConfig
  pres beatPo using bt_logAppend, bt_requestAppendAll
  all_goals bt
theorem bt_syncLogToNewSrv (i : Nat) : Pres Beat (syncLogToNewSrv i) := by
  unfold syncLogToNewSrv
  pres beatPo using bt_addToConfig, bt_createSyncSnapshotReq, bt_emit, bt_getPeer
  all_goals bt
theorem bt_rmSrvFromCluster (id : Int) : Pres Beat (rmSrvFromCluster id) := by
  unfold rmSrvFromCluster
  pres beatPo using bt_logAppend, bt_requestAppendAll
  all_goals bt
theorem bt_handleExtSnpResp (resp : Resp) : Pres Beat (handleExtSnpResp resp) := by
  unfold handleExtSnpResp
  pres beatPo using bt_die, bt_modPeer, bt_getPeer, bt_syncLogToNewSrv
  all_goals bt
theorem bt_handleExtResp (resp : Resp) : Pres Beat (handleExtResp resp) := by
  unfold handleExtResp
  pres beatPo using bt_die, bt_modPeer, bt_handlePrevoteResp, bt_syncLogToNewSrv, bt_rmSrvFromCluster, bt_handleExtSnpResp
  all_goals bt
theorem bt_forceRemove (id : Int) : Pres Beat (forceRemove id) := by
  unfold forceRemove
  pres beatPo using bt_rmSrvFromCluster
  all_goals bt
theorem bt_handleExtErr (req : Req) : Pres Beat (handleExtErr req) := by
  unfold handleExtErr
  pres beatPo using bt_modPeer, bt_forceRemove
  all_goals bt
theorem bt_rpcResult (r : PeerRef) (ty : MsgType) (ok : Bool) : Pres Beat (rpcResult r ty ok) := by
  unfold rpcResult
  pres beatPo using bt_modPeer
  all_goals bt
theorem bt_commitConf (c : Config) : Pres Beat (commitConf c) := by
  unfold commitConf
  pres beatPo using bt_emit, bt_reconfigure
  all_goals bt
theorem bt_findConf (idx n : Nat) (c : Config) : Pres Beat (findConf idx n c) := by
  induction n generalizing c with
  | zero => exact pres_throw beatPo _
  | succ n ih =>
    unfold findConf
    pres beatPo using bt_entryAt, bt_die, ih
    all_goals bt
theorem bt_confForSnap (idx : Nat) : Pres Beat (confForSnap idx) := by
  unfold confForSnap
  pres beatPo using bt_die, bt_findConf
  all_goals bt
theorem bt_startSnapshot (idx : Nat) : Pres Beat (startSnapshot idx) := by
  unfold startSnapshot
  pres beatPo using bt_emit, bt_termAt, bt_confForSnap
  all_goals bt
theorem bt_snapshotAndCompact (idx : Nat) : Pres Beat (snapshotAndCompact idx) := by
  unfold snapshotAndCompact
  pres beatPo using bt_startSnapshot
  all_goals bt
theorem bt_keepSnap (snp : Snap) : Pres Beat (keepSnap snp) := by
  unfold keepSnap
  pres beatPo using bt_emit
  all_goals bt
theorem bt_onSnapshotCompleted (snp : Snap) (ok : Bool) : Pres Beat (onSnapshotCompleted snp ok) := by
  unfold onSnapshotCompleted
  pres beatPo using bt_logCompact
  all_goals bt
theorem bt_applyEntry (i : Nat) (e : Entry) : Pres Beat (applyEntry i e) := by
  unfold applyEntry
  pres beatPo using bt_emit, bt_commitConf
  all_goals bt
theorem bt_applyOne  : Pres Beat (applyOne) := by
  unfold applyOne
  pres beatPo using bt_entryToApply, bt_snapshotAndCompact, bt_applyEntry
  all_goals bt
theorem bt_replicateLog (data : Nat) : Pres Beat (replicateLog data) := by
  unfold replicateLog
  pres beatPo using bt_logAppend, bt_requestAppendAll, bt_isLeader
  all_goals bt

theorem bt_dispatch (r : Req) (hr : r.type ≠ .joinReq) : Pres Beat (dispatch r) := by
  unfold dispatch handleExtended
  pres beatPo using bt_handleAppendEntries, bt_handleVoteReq, bt_handleCliReq, bt_handleAddSrv, bt_handleRmSrv, bt_handleLogSync,
    bt_handlePrevoteReq, bt_die, bt_handleInstallSnapshot, bt_handleLeave
  all_goals exact absurd (by assumption) hr

theorem on_reconfigure {K : Int → Prop} (c : Config) : Pres (fun s s' : Srv => s.BeatBut K → s'.BeatBut K) (reconfigure c) := on_of (bt_reconfigure c)
theorem on_follow {K : Int → Prop} {f : Srv → Srv} (hf : ∀ s, (f s).role ≠ .leader) : Pres (fun s s' : Srv => s.BeatBut K → s'.BeatBut K) (modify f : R PUnit) :=
  fun s _ h => absurd h (hf s)
theorem on_keep {K : Int → Prop} {f : Srv → Srv} (hf : ∀ s, (f s).role = s.role ∧ (f s).peers = s.peers) :
    Pres (fun s s' : Srv => s.BeatBut K → s'.BeatBut K) (modify f : R PUnit) :=
  fun s => (bt_same (s := s) (.inl (hf s).1) (hf s).2).1 K

/-- An invitation. -/
theorem on_handleJoin {K : Int → Prop} (req : Req) : Pres (fun s s' : Srv => s.BeatBut K → s'.BeatBut K) (handleJoin req) := by
  unfold handleJoin
  pres onPo using (on_of bt_saveState), on_reconfigure
  all_goals first
    | (exact on_keep fun _ => ⟨rfl, rfl⟩)
    | (exact on_follow fun _ h => (by cases h))
    | (intro s _ h; cases h)
    | (exact fun s => fun h => h)

theorem on_dispatch {K : Int → Prop} (r : Req) : Pres (fun s s' : Srv => s.BeatBut K → s'.BeatBut K) (dispatch r) := by
  by_cases h : r.type = .joinReq
  · have : dispatch r = handleJoin r := by unfold dispatch handleExtended; rw [h]
    rw [this]
    exact on_handleJoin r
  · exact on_of (bt_dispatch r h)

theorem bt_processReq (r : Req) (hr : r.type ≠ .joinReq) : Pres Beat (processReq r) := by
  unfold processReq
  exact pres_bind beatPo (bt_hearTerm r) fun _ => bt_dispatch r hr
theorem on_processReq {K : Int → Prop} (r : Req) : Pres (fun s s' : Srv => s.BeatBut K → s'.BeatBut K) (processReq r) := by
  unfold processReq
  exact pres_bind onPo (on_of (bt_hearTerm r)) fun _ => on_dispatch r

/-- Every other input. -/
theorem bt_run {x : Input} (hj : ∀ r, x = .req r → r.type ≠ .joinReq) (hh : ∀ i, x ≠ .hbTimeout i) : Pres Beat x.run := by
  intro s
  cases x with
  | req r => exact pres_bind beatPo (bt_processReq r (hj r rfl)) (fun q => bt_emit _) s
  | peerResp ty r => exact pres_bind beatPo (bt_rpcResult _ _ _) (fun _ => bt_handlePeerResp r) s
  | extResp p ty r => exact pres_bind beatPo (bt_rpcResult _ _ _) (fun _ => bt_handleExtResp r) s
  | peerErr r => exact bt_rpcResult _ _ _ s
  | extErr p r => exact pres_bind beatPo (bt_rpcResult _ _ _) (fun _ => bt_handleExtErr r) s
  | retry r =>
    show Beat s (retryReq r s).2
    unfold retryReq
    split
    · exact bt_emit _ s
    · exact beatPo.refl s
  | electionTimeout => exact bt_handleElectionTimeout s
  | hbTimeout id => exact absurd rfl (hh id)
  | apply => exact bt_applyOne s
  | snapDone q ok =>
    exact pres_ite (pres_bind beatPo (bt_keepSnap q) fun _ => bt_onSnapshotCompleted q true) (bt_onSnapshotCompleted q false) s
  | replicate d => exact pres_bind beatPo (bt_replicateLog d) (fun _ => pres_pure beatPo _) s
  | tick n => exact bt_same (.inl rfl) rfl

theorem off_run {x : Input} (hj : ∀ r, x = .req r → r.type ≠ .joinReq) (s : Srv) (h : s.Silenced) : (x.run s).2.Silenced := by
  by_cases hh : ∃ i, x = .hbTimeout i
  · obtain ⟨i, rfl⟩ := hh; exact off_handleHbTimeout _ s h
  · exact (bt_run hj (fun i hi => hh ⟨i, hi⟩) s).2 h

theorem on_run {K : Int → Prop} {x : Input} (s : Srv) (hh : ∀ i e, x = .hbTimeout i → (x.run s).1 = .error e → K i) (h : s.BeatBut K) :
    (x.run s).2.BeatBut K := by
  by_cases hi : ∃ i, x = .hbTimeout i
  · obtain ⟨i, rfl⟩ := hi; exact on_handleHbTimeout i s h fun e => hh i e rfl
  · by_cases hj : ∃ r, x = .req r
    · obtain ⟨r, rfl⟩ := hj
      exact pres_bind onPo (on_processReq r) (fun q => on_of (bt_emit _)) s h
    · exact (bt_run (fun r hr => absurd ⟨r, hr⟩ hj) (fun i hr => hi ⟨i, hr⟩) s).1 _ h

end Cs.Raft
