import Verif.Raft.Commits
import Verif.Raft.Steps

/-!
# Parameters, the static variable of `is_leader` and heartbeat intervals

`Soft`: what every handler does to the parameters (nothing), to the time kept by `is_leader`, and to the heartbeat intervals
of the peers.
-/

set_option linter.unusedSectionVars false

namespace Cs.Raft
open Cs

/-- A property of the heartbeat interval of a peer. `K pr p` depends on the configuration and the interval of the peer only,
and the configured interval has it. -/
class HbKind (K : Params → Peer → Prop) : Prop where
  same {pr : Params} {p q : Peer} : p.cfg = q.cfg → p.hbInterval = q.hbInterval → K pr q → K pr p
  base {pr : Params} {p : Peer} : p.hbInterval = pr.hbInterval → K pr p

/-- It survives a failed request. -/
class HbSlow (K : Params → Peer → Prop) : Prop extends HbKind K where
  slow {pr : Params} {p : Peer} : K pr p → K pr (slowDownHb pr p)

/-- All peers have it. -/
def HbOk (K : Params → Peer → Prop) (s : Srv) : Prop := ∀ p ∈ s.peers, K s.params p

/-- The server that joins has it. -/
def HbJoin (K : Params → Peer → Prop) (s : Srv) : Prop := ∀ p, s.srvToJoin = some p → K s.params p

/-- See above. -/
structure Soft (K : Params → Peer → Prop) (s s' : Srv) : Prop where
  params : s'.params = s.params
  elapsed : s'.elapsed = s.elapsed ∨ s.params.electionUpper * 2 < s.elapsed
  hb : HbOk K s → HbOk K s'
  join : HbJoin K s → HbJoin K s'

variable {K : Params → Peer → Prop}

theorem softPo : PO (Soft K) where
  refl s := ⟨rfl, .inl rfl, fun h => h, fun h => h⟩
  trans {a b c} h1 h2 := by
    refine ⟨h2.params.trans h1.params, ?_, fun h => h2.hb (h1.hb h), fun h => h2.join (h1.join h)⟩
    rcases h1.elapsed with e1 | e1
    · have := h2.elapsed
      rw [h1.params, e1] at this
      exact this
    · exact .inr e1

theorem Soft.of {s s' : Srv} (h1 : s'.params = s.params) (h2 : s'.elapsed = s.elapsed) (h3 : s'.peers = s.peers)
    (h4 : s'.srvToJoin = s.srvToJoin) : Soft K s s' :=
  ⟨h1, .inl h2, fun h => by unfold HbOk; rw [h1, h3]; exact h, fun h => by unfold HbJoin; rw [h1, h4]; exact h⟩

variable [hk : HbKind K]
include hk

/-- Only some peers stay. -/
theorem Soft.sub {s s' : Srv} (h1 : s'.params = s.params) (h2 : s'.elapsed = s.elapsed)
    (h3 : ∀ p ∈ s'.peers, ∃ q ∈ s.peers, p.cfg = q.cfg ∧ p.hbInterval = q.hbInterval)
    (h4 : s'.srvToJoin = s.srvToJoin ∨ s'.srvToJoin = none) : Soft K s s' := by
  refine ⟨h1, .inl h2, fun h p hp => ?_, fun h p hp => ?_⟩
  · obtain ⟨q, hq, e1, e2⟩ := h3 p hp
    rw [h1]; exact hk.same e1 e2 (h q hq)
  · rcases h4 with e | e
    · rw [h1]; rw [e] at hp; exact h p hp
    · rw [e] at hp; cases hp

theorem sf_mod {f : Srv → Srv} (h : ∀ s, Soft K s (f s)) : Pres (Soft K) (modify f : R PUnit) := fun s => h s

theorem sf_emit (e : Eff) : Pres (Soft K) (emit e) := fun _ => .of rfl rfl rfl rfl

/-- A change of one peer that keeps its interval within bounds. -/
theorem soft_setPeer (s : Srv) (r : PeerRef) (f : Peer → Peer)
    (hf : ∀ p, K s.params p → K s.params (f p)) : Soft K s (s.setPeer r f) := by
  cases r with
  | member id =>
    refine ⟨rfl, .inl rfl, fun h p hp => ?_, fun h => h⟩
    obtain ⟨q, hq, e⟩ := List.mem_map.1 (show p ∈ s.peers.map fun p => if p.id == id then f p else p from hp)
    rw [← e]
    split
    · exact hf q (h q hq)
    · exact h q hq
  | joining =>
    refine ⟨rfl, .inl rfl, fun h => h, fun h p hp => ?_⟩
    rcases hj : s.srvToJoin with _ | q
    · have : (s.srvToJoin.map f) = some p := hp
      rw [hj] at this; cases this
    · have : (s.srvToJoin.map f) = some p := hp
      rw [hj] at this
      cases this
      exact hf q (h q hj)

theorem sf_modPeer (r : PeerRef) (f : Peer → Peer) (hf : ∀ p, (f p).cfg = p.cfg ∧ (f p).hbInterval = p.hbInterval) :
    Pres (Soft K) (modPeer r f) := fun s => soft_setPeer s r f fun p h => hk.same (hf p).1 (hf p).2 h

theorem sf_resume (r : PeerRef) (s : Srv) : Soft K s (modPeer r (resumeHb s.params) s).2 :=
  soft_setPeer s r _ fun _ _ => hk.base rfl

omit hk in
theorem sf_slow [hs : HbSlow K] (r : PeerRef) (s : Srv) : Soft K s (modPeer r (slowDownHb s.params) s).2 :=
  soft_setPeer s r _ fun _ h => hs.slow h

/-- The primitive updates. -/
macro "soft" : tactic => `(tactic| first | exact ⟨rfl, rfl⟩ | exact Soft.of rfl rfl rfl rfl | (split <;> exact ⟨rfl, rfl⟩))

theorem sf_die {α : Type} (c : Int) : Pres (Soft K) (die c : R α) := by
  unfold die
  pres softPo using sf_emit
  all_goals soft
theorem sf_saveState : Pres (Soft K) saveState := fun _ => .of rfl rfl rfl rfl
theorem sf_getPeer (r : PeerRef) : Pres (Soft K) (getPeer r) := by
  unfold getPeer
  pres softPo using sf_die
  all_goals soft
theorem sf_peerIds : Pres (Soft K) peerIds := fun s => softPo.refl s
theorem sf_termAt (i : Nat) : Pres (Soft K) (termAt i) := by
  unfold termAt
  pres softPo using sf_die
  all_goals soft
theorem sf_termForLog (i : Nat) : Pres (Soft K) (termForLog i) := by
  unfold termForLog
  pres softPo using sf_die, sf_termAt
  all_goals soft
theorem sf_chooseSnap (r : PeerRef) (i : Nat) : Pres (Soft K) (chooseSnap r i) := by
  unfold chooseSnap
  pres softPo using sf_die, sf_getPeer, sf_modPeer
  all_goals soft
theorem sf_createSync (r : PeerRef) (i t c : Nat) : Pres (Soft K) (createSyncSnapshotReq r i t c) := by
  unfold createSyncSnapshotReq
  pres softPo using sf_die, sf_getPeer, sf_chooseSnap
  all_goals soft
theorem sf_entriesFrom (i : Nat) : Pres (Soft K) (entriesFrom i) := by
  unfold entriesFrom
  pres softPo using sf_die
theorem sf_appendReqFrom (r : PeerRef) (i : Nat) : Pres (Soft K) (appendReqFrom r i) := by
  unfold appendReqFrom
  pres softPo using sf_termForLog, sf_entriesFrom, sf_getPeer
  all_goals soft
theorem sf_createAppendReq (r : PeerRef) : Pres (Soft K) (createAppendReq r) := by
  unfold createAppendReq
  pres softPo using sf_die, sf_getPeer, sf_modPeer, sf_createSync, sf_appendReqFrom
  all_goals soft
theorem sf_requestAppend (r : PeerRef) : Pres (Soft K) (requestAppend r) := by
  unfold requestAppend
  pres softPo using sf_getPeer, sf_modPeer, sf_createAppendReq, sf_emit
  all_goals soft
theorem sf_commitNotify (id : Int) : Pres (Soft K) (commitNotify id) := by
  unfold commitNotify
  pres softPo using sf_requestAppend, sf_modPeer
  all_goals soft
theorem sf_requestAppendTo (id : Int) : Pres (Soft K) (requestAppendTo id) := by
  unfold requestAppendTo
  pres softPo using sf_requestAppend
  all_goals soft
theorem sf_askVote (ty : MsgType) (id : Int) : Pres (Soft K) (askVote ty id) := by
  unfold askVote
  pres softPo using sf_termForLog, sf_emit
  all_goals soft
theorem sf_entryAt (i : Nat) : Pres (Soft K) (entryAt i) := by
  unfold entryAt
  pres softPo using sf_die
  all_goals soft
theorem sf_entryToApply (i : Nat) : Pres (Soft K) (entryToApply i) := by
  unfold entryToApply
  pres softPo using sf_die
  all_goals soft
theorem sf_restart : Pres (Soft K) restartElectionTimer := by
  unfold restartElectionTimer
  pres softPo using sf_mod
  all_goals soft
theorem sf_stop : Pres (Soft K) stopElectionTimer := by
  unfold stopElectionTimer
  pres softPo using sf_mod
  all_goals soft
theorem sf_enableHb (r : PeerRef) : Pres (Soft K) (enableHb r) := fun s =>
  soft_setPeer s r _ fun _ _ => hk.base rfl
theorem sf_leaderPeer (id : Int) : Pres (Soft K) (leaderPeer id) := by
  unfold leaderPeer
  pres softPo using sf_modPeer, sf_enableHb
  all_goals soft
theorem sf_becomeFollower : Pres (Soft K) becomeFollower := by
  intro s
  rw [run_becomeFollower]
  refine .sub rfl rfl (fun p hp => ?_) (.inr rfl)
  obtain ⟨q, hq, e⟩ := List.mem_map.1 (show p ∈ s.peers.map disableHb from hp)
  exact ⟨q, hq, by rw [← e]; exact ⟨rfl, rfl⟩⟩
theorem sf_commit (n : Nat) : Pres (Soft K) (commit n) := by
  unfold commit
  pres softPo using sf_mod, sf_emit, sf_peerIds, sf_commitNotify
  all_goals soft
theorem sf_requestAppendAll : Pres (Soft K) requestAppendAll := by
  unfold requestAppendAll
  pres softPo using sf_commit, sf_peerIds, sf_requestAppendTo
  all_goals soft
theorem sf_logAppend (e : Entry) : Pres (Soft K) (logAppend e) := by
  unfold logAppend
  pres softPo using sf_mod, sf_emit
  all_goals soft
theorem sf_logWriteAt (i : Nat) (e : Entry) : Pres (Soft K) (logWriteAt i e) := by
  unfold logWriteAt
  pres softPo using sf_mod, sf_emit
  all_goals soft
theorem sf_logApplyPack (i : Nat) (es : List Entry) : Pres (Soft K) (logApplyPack i es) := by
  unfold logApplyPack
  pres softPo using sf_mod, sf_emit
  all_goals soft
theorem sf_logCompact (i : Nat) : Pres (Soft K) (logCompact i) := by
  unfold logCompact
  pres softPo using sf_mod, sf_emit
  all_goals soft
theorem sf_initialConf : Pres (Soft K) initialConf := by
  unfold initialConf
  pres softPo using sf_mod, sf_logAppend
  all_goals soft
theorem sf_noJoin : Pres (Soft K) (modify fun s : Srv => { s with srvToJoin := none } : R PUnit) :=
  fun _ => .sub rfl rfl (fun p hp => ⟨p, hp, rfl, rfl⟩) (.inr rfl)
theorem sf_becomeLeader : Pres (Soft K) becomeLeader := by
  unfold becomeLeader
  pres softPo using sf_noJoin, sf_mod, sf_emit, sf_peerIds, sf_leaderPeer, sf_initialConf, sf_requestAppendAll, sf_stop
  all_goals exact .of rfl rfl rfl rfl
theorem sf_updateTerm (t : Nat) : Pres (Soft K) (updateTerm t) := by
  unfold updateTerm
  pres softPo using sf_mod, sf_saveState, sf_becomeFollower
  all_goals exact .of rfl rfl rfl rfl
theorem sf_voteSelf : Pres (Soft K) voteSelf := by
  unfold voteSelf
  pres softPo using sf_mod, sf_saveState
  all_goals exact .of rfl rfl rfl rfl
theorem sf_askForVotes : Pres (Soft K) askForVotes := by
  unfold askForVotes
  pres softPo using sf_mod, sf_becomeLeader, sf_peerIds, sf_askVote
  all_goals exact .of rfl rfl rfl rfl
theorem sf_rearm : Pres (Soft K) rearm := by
  unfold rearm
  pres softPo using sf_restart
  all_goals soft
theorem sf_startTerm : Pres (Soft K) startTerm := by
  unfold startTerm
  pres softPo using sf_mod, sf_saveState
  all_goals exact .of rfl rfl rfl rfl
theorem sf_becomeCandidate : Pres (Soft K) becomeCandidate := by
  unfold becomeCandidate requestVote
  pres softPo using sf_startTerm, sf_voteSelf, sf_askForVotes, sf_rearm
theorem sf_requestPrevote : Pres (Soft K) requestPrevote := by
  unfold requestPrevote
  pres softPo using sf_becomeCandidate, sf_mod, sf_peerIds, sf_askVote
  all_goals exact .of rfl rfl rfl rfl
theorem sf_leaveConfig : Pres (Soft K) leaveConfig := by
  unfold leaveConfig
  pres softPo using sf_mod, sf_emit
  all_goals soft
theorem sf_handleElectionTimeout : Pres (Soft K) handleElectionTimeout := by
  unfold handleElectionTimeout
  pres softPo using sf_mod, sf_leaveConfig, sf_die, sf_restart, sf_requestPrevote, sf_becomeCandidate
  all_goals exact .of rfl rfl rfl rfl
theorem sf_handleHbTimeout (r : PeerRef) : Pres (Soft K) (handleHbTimeout r) := by
  unfold handleHbTimeout
  pres softPo using sf_modPeer, sf_requestAppend
  all_goals soft

/-! ## Requests -/

theorem sf_skipSame : ∀ (es : List Entry) (i : Nat), Pres (Soft K) (skipSame i es)
  | [], _ => pres_pure softPo _
  | e :: es, i => by
    have ih := sf_skipSame es
    unfold skipSame
    pres softPo using sf_termAt, ih
theorem sf_rollbackOld (i : Nat) : Pres (Soft K) (rollbackOld i) := by
  unfold rollbackOld
  pres softPo using sf_entryAt, sf_emit, sf_mod
  all_goals soft
theorem sf_noteNew (i : Nat) (e : Entry) : Pres (Soft K) (noteNew i e) := by
  unfold noteNew
  pres softPo using sf_emit, sf_mod
  all_goals soft
theorem sf_overwriteOld : ∀ (es : List Entry) (i : Nat), Pres (Soft K) (overwriteOld i es)
  | [], _ => pres_pure softPo _
  | e :: es, i => by
    have ih := sf_overwriteOld es
    unfold overwriteOld
    pres softPo using sf_rollbackOld, sf_logWriteAt, sf_noteNew, ih
theorem sf_appendNew : ∀ (es : List Entry), Pres (Soft K) (appendNew es)
  | [] => pres_pure softPo _
  | e :: es => by
    have ih := sf_appendNew es
    unfold appendNew
    pres softPo using sf_logAppend, sf_noteNew, ih
theorem sf_storeEntries (r : Req) : Pres (Soft K) (storeEntries r) := by
  unfold storeEntries
  pres softPo using sf_skipSame, sf_overwriteOld, sf_appendNew
  all_goals soft
theorem sf_hearLeader (r : Req) : Pres (Soft K) (hearLeader r) := by
  unfold hearLeader
  pres softPo using sf_becomeFollower, sf_die, sf_restart
  all_goals soft
theorem sf_logOkay (r : Req) : Pres (Soft K) (logOkay r) := by
  unfold logOkay
  pres softPo using sf_termForLog
  all_goals soft
theorem sf_handleAppendEntries (r : Req) : Pres (Soft K) (handleAppendEntries r) := by
  unfold handleAppendEntries
  pres softPo using sf_hearLeader, sf_logOkay, sf_storeEntries, sf_mod, sf_commit
  all_goals soft
theorem sf_handleVoteReq (r : Req) : Pres (Soft K) (handleVoteReq r) := by
  unfold handleVoteReq
  pres softPo using sf_mod, sf_saveState
  all_goals soft
theorem sf_handlePrevoteReq (r : Req) : Pres (Soft K) (handlePrevoteReq r) := by
  unfold handlePrevoteReq
  pres softPo using sf_mod
  all_goals soft
theorem sf_isLeader : Pres (Soft K) isLeader := by
  unfold isLeader
  refine pres_getBind fun s => ?_
  by_cases h : s.role = .leader ∧ 0 < s.peers.length ∧ s.params.electionUpper * 2 < s.elapsed
  · simp only [if_pos h]
    have h1 : Soft K s { s with elapsed := toI32 ((s.now : Int) - quorumResp s) } :=
      ⟨rfl, .inr h.2.2, fun h => h, fun h => h⟩
    rw [bind_modify]
    generalize { s with elapsed := toI32 ((s.now : Int) - quorumResp s) } = s1 at h1 ⊢
    have h2 : Pres (Soft K) (do
        let s ← get
        if s.params.electionUpper * 2 < s.elapsed then pure false
        else pure (decide (s.role = .leader)) : R Bool) := by
      pres softPo using sf_emit
    exact softPo.trans h1 (h2 s1)
  · simp only [if_neg h]
    exact softPo.refl s
theorem sf_appendClient : ∀ (es : List Entry), Pres (Soft K) (appendClient es)
  | [] => pres_pure softPo _
  | e :: es => by
    have ih := sf_appendClient es
    unfold appendClient
    pres softPo using sf_logAppend, sf_emit, ih
theorem sf_handleCliReq (r : Req) : Pres (Soft K) (handleCliReq r) := by
  unfold handleCliReq
  pres softPo using sf_isLeader, sf_appendClient, sf_requestAppendAll
  all_goals soft
theorem sf_addPeer (c : SrvCfg) : Pres (Soft K) (addPeer c) := by
  unfold addPeer
  have h0 : ∀ s : Srv, Soft K s (if (s.findPeer c.id).isSome then s else
      { s with peers := s.peers ++ [{ cfg := c, nextIdx := s.log.next, hbInterval := s.params.hbInterval }] }) := by
    intro s
    split
    · exact softPo.refl s
    · refine ⟨rfl, .inl rfl, fun h p hp => ?_, fun h => h⟩
      rcases List.mem_append.1 hp with hp | hp
      · exact h p hp
      · rw [List.mem_singleton.1 hp]
        exact hk.base rfl
  pres softPo using sf_noJoin, (sf_mod h0), sf_enableHb, sf_modPeer
  all_goals exact ⟨rfl, rfl⟩
theorem soft_filter (s : Srv) (f : Peer → Bool) : Soft K s { s with peers := s.peers.filter f } :=
  .sub rfl rfl (fun p hp => ⟨p, (List.mem_filter.1 hp).1, rfl, rfl⟩) (.inl rfl)
theorem sf_removePeer (c : Config) (i : Int) : Pres (Soft K) (removePeer c i) := by
  unfold removePeer
  pres softPo using sf_emit, sf_die, sf_mod
  all_goals exact soft_filter _ _
theorem sf_reconfigure (c : Config) : Pres (Soft K) (reconfigure c) := by
  unfold reconfigure
  pres softPo using sf_addPeer, sf_removePeer, sf_mod
  all_goals exact .of rfl rfl rfl rfl
theorem sf_handleJoin (r : Req) : Pres (Soft K) (handleJoin r) := by
  unfold handleJoin
  pres softPo using sf_mod, sf_saveState, sf_reconfigure
  all_goals exact .of rfl rfl rfl rfl
theorem sf_installSnapshot (q : Snap) : Pres (Soft K) (installSnapshot q) := by
  unfold installSnapshot
  pres softPo using sf_die, sf_logCompact, sf_stop, sf_emit, sf_mod, sf_reconfigure, sf_saveState, sf_restart
  all_goals exact .of rfl rfl rfl rfl
theorem sf_handleSnapshotSync (q : SnpSync) : Pres (Soft K) (handleSnapshotSync q) := by
  unfold handleSnapshotSync
  pres softPo using sf_emit, sf_die, sf_installSnapshot
theorem sf_hearSnapshotLeader (r : Req) : Pres (Soft K) (hearSnapshotLeader r) := by
  unfold hearSnapshotLeader
  pres softPo using sf_becomeFollower, sf_die, sf_restart
  all_goals soft
theorem sf_handleInstallSnapshot (r : Req) : Pres (Soft K) (handleInstallSnapshot r) := by
  unfold handleInstallSnapshot
  pres softPo using sf_hearSnapshotLeader, sf_handleSnapshotSync
theorem sf_handleRmSrv (r : Req) : Pres (Soft K) (handleRmSrv r) := by
  unfold handleRmSrv
  pres softPo using sf_emit
  all_goals soft
theorem sf_inviteSrv : Pres (Soft K) inviteSrv := by
  unfold inviteSrv
  pres softPo using sf_getPeer, sf_emit
  all_goals soft
theorem sf_handleAddSrv (r : Req) : Pres (Soft K) (handleAddSrv r) := by
  unfold handleAddSrv
  have h0 : ∀ c : SrvCfg, Pres (Soft K) (modify fun s : Srv =>
      { s with srvToJoin := some { cfg := c, hbInterval := s.params.hbInterval } } : R PUnit) := by
    intro c s
    refine ⟨rfl, .inl rfl, fun h => h, fun h p hp => ?_⟩
    cases hp
    exact hk.base rfl
  pres softPo using h0, sf_mod, sf_inviteSrv
  all_goals exact .of rfl rfl rfl rfl
theorem sf_handleLogSync (r : Req) : Pres (Soft K) (handleLogSync r) := by
  unfold handleLogSync
  pres softPo using sf_logApplyPack, sf_commit
  all_goals soft
theorem sf_handleLeave (r : Req) : Pres (Soft K) (handleLeave r) := by
  unfold handleLeave
  pres softPo using sf_mod
  all_goals soft
theorem sf_hearTerm (r : Req) : Pres (Soft K) (hearTerm r) := by
  unfold hearTerm
  pres softPo using sf_updateTerm, sf_mod
  all_goals soft

/-! ## Responses -/
theorem sf_acceptedResp (r : Resp) : Pres (Soft K) (acceptedResp r) := by
  unfold acceptedResp
  pres softPo using sf_modPeer, sf_commit, sf_getPeer
  all_goals exact ⟨rfl, rfl⟩
theorem sf_refusedResp (r : Resp) : Pres (Soft K) (refusedResp r) := by
  unfold refusedResp
  pres softPo using sf_modPeer
  all_goals soft
theorem sf_handleAppendResp (r : Resp) : Pres (Soft K) (handleAppendResp r) := by
  unfold handleAppendResp
  pres softPo using sf_acceptedResp, sf_refusedResp, sf_requestAppendTo
theorem sf_acceptedSnpResp (r : Resp) : Pres (Soft K) (acceptedSnpResp r) := by
  unfold acceptedSnpResp
  pres softPo using sf_modPeer, sf_getPeer
  all_goals exact ⟨rfl, rfl⟩
theorem sf_handleSnpResp (r : Resp) : Pres (Soft K) (handleSnpResp r) := by
  unfold handleSnpResp
  pres softPo using sf_acceptedSnpResp, sf_requestAppendTo
theorem sf_handleVotingResp (r : Resp) : Pres (Soft K) (handleVotingResp r) := by
  unfold handleVotingResp
  pres softPo using sf_mod, sf_becomeLeader
  all_goals exact .of rfl rfl rfl rfl
theorem sf_dispatchResp (r : Resp) : Pres (Soft K) (dispatchResp r) := by
  unfold dispatchResp
  pres softPo using sf_handleVotingResp, sf_handleAppendResp, sf_handleSnpResp, sf_die
theorem sf_handlePeerResp (r : Resp) : Pres (Soft K) (handlePeerResp r) := by
  unfold handlePeerResp
  pres softPo using sf_modPeer, sf_updateTerm, sf_dispatchResp
  all_goals exact ⟨rfl, rfl⟩
theorem sf_handlePrevoteResp (r : Resp) : Pres (Soft K) (handlePrevoteResp r) := by
  unfold handlePrevoteResp
  pres softPo using sf_mod, sf_becomeCandidate, sf_restart
  all_goals exact .of rfl rfl rfl rfl
theorem sf_addToConfig : Pres (Soft K) addToConfig := by
  unfold addToConfig
  pres softPo using sf_logAppend, sf_mod, sf_requestAppendAll
  all_goals soft
theorem sf_sendSync (r : PeerRef) (i t c : Nat) :
    Pres (Soft K) (createSyncSnapshotReq r i t c >>= fun q => emit (.send q)) := by
  pres softPo using sf_createSync, sf_emit
  all_goals soft
theorem sf_syncLogToNewSrv (i : Nat) : Pres (Soft K) (syncLogToNewSrv i) := by
  unfold syncLogToNewSrv
  pres softPo using sf_addToConfig, sf_sendSync, sf_getPeer, sf_emit
  all_goals soft
theorem sf_rmSrvFromCluster (i : Int) : Pres (Soft K) (rmSrvFromCluster i) := by
  unfold rmSrvFromCluster
  pres softPo using sf_logAppend, sf_mod, sf_requestAppendAll
  all_goals soft
theorem sf_handleExtSnpResp (r : Resp) : Pres (Soft K) (handleExtSnpResp r) := by
  unfold handleExtSnpResp
  pres softPo using sf_die, sf_modPeer, sf_getPeer, sf_syncLogToNewSrv
  all_goals soft
theorem sf_handleExtResp (r : Resp) : Pres (Soft K) (handleExtResp r) := by
  unfold handleExtResp
  refine pres_getBind fun s => ?_
  have h1 : Pres (Soft K) (do
      modPeer .joining fun p => { p with nextIdx := r.nextIdx, matched := subU64 r.nextIdx 1 }
      syncLogToNewSrv r.nextIdx : R Unit) := by
    pres softPo using sf_modPeer, sf_syncLogToNewSrv
    all_goals exact ⟨rfl, rfl⟩
  show At (Soft K) s _
  split
  · split
    · exact softPo.refl s
    · exact softPo.trans (sf_resume .joining s) (h1 _)
  · split
    · exact softPo.refl s
    · split
      · exact sf_syncLogToNewSrv _ s
      · exact softPo.refl s
  · split
    · exact sf_rmSrvFromCluster _ s
    · exact softPo.refl s
  · exact sf_handleExtSnpResp r s
  · exact sf_handlePrevoteResp r s
  · exact sf_die _ s
theorem sf_forceRemove (i : Int) : Pres (Soft K) (forceRemove i) := by
  unfold forceRemove
  refine pres_bind softPo (fun s => ?_) fun _ => sf_rmSrvFromCluster i
  show Soft K s { s with peers := if s.peers.length = 1 then s.peers.filter fun p => p.id != i else s.peers }
  split
  · exact soft_filter _ _
  · exact softPo.refl s
omit hk in
theorem sf_handleExtErr [HbSlow K] (r : Req) : Pres (Soft K) (handleExtErr r) := by
  unfold handleExtErr
  refine pres_getBind fun s => ?_
  show At (Soft K) s _
  split
  · split
    · exact softPo.refl s
    · split
      · exact sf_forceRemove _ s
      · exact sf_slow _ s
  · split
    · exact softPo.refl s
    · split
      · exact .sub rfl rfl (fun p hp => ⟨p, hp, rfl, rfl⟩) (.inr rfl)
      · exact sf_slow _ s
  · split
    · exact softPo.refl s
    · split
      · exact .sub rfl rfl (fun p hp => ⟨p, hp, rfl, rfl⟩) (.inr rfl)
      · exact sf_slow _ s
  · exact softPo.refl s
theorem soft_free (p : PeerRef) (ty : MsgType) (s : Srv) :
    Soft K s (s.setPeer p fun q => if ty = .appendReq ∨ ty = .snpReq then { q with busy := false } else q) :=
  sf_modPeer p _ (fun q => by split <;> exact ⟨rfl, rfl⟩) s
theorem sf_rpcResult (p : PeerRef) (ty : MsgType) : Pres (Soft K) (rpcResult p ty true) := by
  unfold rpcResult
  refine pres_getBind fun s => ?_
  rw [bind_modPeer]
  have h1 := soft_free (K := K) p ty s
  have h2 := h1.params
  refine softPo.trans h1 ?_
  generalize s.setPeer p (fun q => if ty = .appendReq ∨ ty = .snpReq then { q with busy := false } else q) = s1 at h2 ⊢
  rw [← h2]
  exact sf_resume p s1
omit hk in
theorem sf_rpcError [HbSlow K] (p : PeerRef) (ty : MsgType) : Pres (Soft K) (rpcResult p ty false) := by
  unfold rpcResult
  refine pres_getBind fun s => ?_
  rw [bind_modPeer]
  have h1 := soft_free (K := K) p ty s
  have h2 := h1.params
  refine softPo.trans h1 ?_
  generalize s.setPeer p (fun q => if ty = .appendReq ∨ ty = .snpReq then { q with busy := false } else q) = s1 at h2 ⊢
  rw [← h2]
  exact sf_slow p s1
theorem sf_retryReq (r : Req) : Pres (Soft K) (retryReq r) := by
  unfold retryReq
  pres softPo using sf_emit
  all_goals soft

/-! ## Commit thread and application -/
theorem sf_commitConf (c : Config) : Pres (Soft K) (commitConf c) := by
  unfold commitConf
  pres softPo using sf_emit, sf_mod, sf_reconfigure
  all_goals exact .of rfl rfl rfl rfl
theorem sf_findConf (i : Nat) : ∀ (n : Nat) (c : Config), Pres (Soft K) (findConf i n c)
  | 0, _ => pres_throw softPo _
  | n + 1, c => by
    have ih := sf_findConf i n
    unfold findConf
    pres softPo using sf_entryAt, ih
theorem sf_confForSnap (i : Nat) : Pres (Soft K) (confForSnap i) := by
  unfold confForSnap
  pres softPo using sf_findConf, sf_die
  all_goals soft
theorem sf_startSnapshot (i : Nat) : Pres (Soft K) (startSnapshot i) := by
  unfold startSnapshot
  pres softPo using sf_confForSnap, sf_termAt, sf_emit
  all_goals soft
theorem sf_snapshotAndCompact (i : Nat) : Pres (Soft K) (snapshotAndCompact i) := by
  unfold snapshotAndCompact
  pres softPo using sf_mod, sf_startSnapshot
  all_goals soft
theorem sf_keepSnap (q : Snap) : Pres (Soft K) (keepSnap q) := by
  unfold keepSnap
  pres softPo using sf_mod, sf_emit
  all_goals soft
theorem sf_onSnapshotCompleted (q : Snap) (ok : Bool) : Pres (Soft K) (onSnapshotCompleted q ok) := by
  unfold onSnapshotCompleted
  pres softPo using sf_mod, sf_logCompact
  all_goals soft
theorem sf_applyEntry (i : Nat) (e : Entry) : Pres (Soft K) (applyEntry i e) := by
  unfold applyEntry
  pres softPo using sf_emit, sf_commitConf
theorem sf_applyOne : Pres (Soft K) applyOne := by
  unfold applyOne
  pres softPo using sf_mod, sf_entryToApply, sf_applyEntry, sf_snapshotAndCompact
  all_goals exact .of rfl rfl rfl rfl
theorem sf_replicateLog (d : Nat) : Pres (Soft K) (replicateLog d) := by
  unfold replicateLog
  pres softPo using sf_isLeader, sf_logAppend, sf_requestAppendAll
  all_goals soft

/-! ## Whole inputs -/
theorem sf_dispatch (r : Req) : Pres (Soft K) (dispatch r) := by
  unfold dispatch handleExtended
  pres softPo using sf_handleAppendEntries, sf_handleVoteReq, sf_handleCliReq, sf_handleAddSrv, sf_handleRmSrv,
    sf_handleLogSync, sf_handleLeave, sf_handlePrevoteReq, sf_die, sf_handleJoin, sf_handleInstallSnapshot
omit hk in
/-- Every input is covered. -/
theorem sf_run [HbSlow K] (x : Input) : Pres (Soft K) x.run := by
  cases x with
  | req r =>
    show Pres _ (processReq r >>= fun resp => emit (.reply resp))
    unfold processReq
    exact pres_bind softPo (pres_bind softPo (sf_hearTerm r) fun _ => sf_dispatch r) fun q => sf_emit _
  | peerResp ty r => exact pres_bind softPo (sf_rpcResult _ _) fun _ => sf_handlePeerResp r
  | extResp p ty r => exact pres_bind softPo (sf_rpcResult _ _) fun _ => sf_handleExtResp r
  | peerErr r => exact sf_rpcError _ _
  | extErr p r => exact pres_bind softPo (sf_rpcError _ _) fun _ => sf_handleExtErr r
  | retry r => exact sf_retryReq r
  | electionTimeout => exact sf_handleElectionTimeout
  | hbTimeout id => exact sf_handleHbTimeout _
  | apply => exact sf_applyOne
  | snapDone q ok =>
    exact pres_ite (pres_bind softPo (sf_keepSnap q) fun _ => sf_onSnapshotCompleted q true) (sf_onSnapshotCompleted q false)
  | replicate d => exact pres_bind softPo (sf_replicateLog d) fun _ => pres_pure softPo _
  | tick n => exact sf_mod fun s => .of rfl rfl rfl rfl

end Cs.Raft
