import Verif.Raft.Commits
import Verif.Raft.Steps

/-!
# Relations that look at requests to peers and at snapshots

`Walk Q x`: what has to be checked to know that the relation `Q` holds between the states before and after the handler of input
`x`.
-/

set_option linter.unusedSectionVars false

namespace Cs.Raft
open Cs

/-- Effects that are neither append nor snapshot requests, nor the creation of a snapshot. -/
def Eff.plain : Eff → Bool
  | .send r => r.type != .appendReq && r.type != .snpReq
  | .createSnp _ => false
  | _ => true

/-- The steps of most handlers. -/
class Walk0 (Q : Srv → Srv → Prop) : Prop where
  po : PO Q
  calm {s s' : Srv} : s'.trace = s.trace → s'.snpInProgress = s.snpInProgress → s'.peers = s.peers →
    s'.srvToJoin = s.srvToJoin ∨ s'.srvToJoin = none → Q s s'
  /-- changes of the server that joins -/
  joinee {s : Srv} {f : Peer → Peer} : (∀ p, (f p).cfg = p.cfg) → Q s { s with srvToJoin := s.srvToJoin.map f }
  /-- changes of the peers -/
  peers {s : Srv} {f : Peer → Peer} : (∀ p, (f p).cfg = p.cfg ∧ (f p).busy = p.busy) → Q s { s with peers := s.peers.map f }
  say {s : Srv} {e : Eff} : e.plain = true → Q s { s with trace := s.trace ++ [e] }
  /-- append and snapshot requests -/
  ask (id : Int) : Pres Q (requestAppend (.member id))

/-- The steps of all handlers. -/
class Walk (Q : Srv → Srv → Prop) (x : outParam Input) : Prop extends Walk0 Q where
  /-- snapshot requests to a server that joins -/
  sync (i t c : Nat) : Pres Q (createSyncSnapshotReq .joining i t c >>= fun q => emit (.send q))
  /-- a snapshot is wanted -/
  snap (i : Nat) : x = .apply → Pres Q (snapshotAndCompact i)
  /-- the new leader -/
  lead : Pres Q becomeLeader
  /-- a snapshot is finished -/
  done (q : Snap) (ok : Bool) : x = .snapDone q ok → Pres Q (onSnapshotCompleted q ok)
  /-- a server is to join -/
  invite {s : Srv} (t : Nat) (c : SrvCfg) (r : Req) : x = .req r → r.type = .addReq → r.entries = [⟨t, .srv c⟩] →
    Q s { s with srvToJoin := some { cfg := c, hbInterval := s.params.hbInterval } }
  /-- a configuration is committed -/
  conf (c : Config) : Pres Q (commitConf c)
  /-- a snapshot is installed -/
  inst (q : Snap) : Pres Q (installSnapshot q)
  /-- this server is to join -/
  join (r : Req) : x = .req r → r.type = .joinReq → Pres Q (handleJoin r)
  /-- the only peer is removed -/
  force {s : Srv} (p : PeerRef) (r : Req) : x = .extErr p r → r.type = .leaveReq → s.peers.length = 1 →
    Q s { s with peers := s.peers.filter fun p => p.id != r.dst }

section
variable {Q : Srv → Srv → Prop} [hw : Walk0 Q]
include hw

theorem wpo : PO Q := hw.po

theorem wk_mod {f : Srv → Srv} (h : ∀ s, Q s (f s)) : Pres Q (modify f : R PUnit) := fun s => h s

theorem wk_emit (e : Eff) (h : e.plain = true) : Pres Q (emit e) := fun _ => hw.say h

theorem wk_setPeer (s : Srv) (r : PeerRef) (f : Peer → Peer)
    (hf : ∀ p, (f p).cfg = p.cfg ∧ (f p).busy = p.busy) : Q s (s.setPeer r f) := by
  cases r with
  | member id =>
    refine hw.peers (f := fun p => if p.id == id then f p else p) fun p => ?_
    show (if (p.id == id) = true then f p else p).cfg = _ ∧ (if (p.id == id) = true then f p else p).busy = _
    split
    · exact hf p
    · exact ⟨rfl, rfl⟩
  | joining => exact hw.joinee fun p => (hf p).1

theorem wk_modPeer (r : PeerRef) (f : Peer → Peer) (hf : ∀ p, (f p).cfg = p.cfg ∧ (f p).busy = p.busy) :
    Pres Q (modPeer r f) := fun s => wk_setPeer s r f hf

/-- The primitive updates. -/
macro "wk" : tactic => `(tactic| first
  | exact ⟨rfl, rfl⟩ | rfl | exact Walk0.calm rfl rfl rfl (.inl rfl) | exact Walk0.calm rfl rfl rfl (.inr rfl)
  | (split <;> exact ⟨rfl, rfl⟩) | (split <;> exact Walk0.calm rfl rfl rfl (.inl rfl)))

theorem wk_die {α : Type} (c : Int) : Pres Q (die c : R α) := by
  unfold die
  pres wpo using wk_emit
  all_goals wk
theorem wk_saveState : Pres Q saveState := fun _ => hw.say rfl
theorem wk_getPeer (r : PeerRef) : Pres Q (getPeer r) := by
  unfold getPeer
  pres wpo using wk_die
  all_goals wk
theorem wk_peerIds : Pres Q peerIds := fun s => wpo.refl s
theorem wk_termAt (i : Nat) : Pres Q (termAt i) := by
  unfold termAt
  pres wpo using wk_die
  all_goals wk
theorem wk_termForLog (i : Nat) : Pres Q (termForLog i) := by
  unfold termForLog
  pres wpo using wk_die, wk_termAt
  all_goals wk
theorem wk_requestAppend (id : Int) : Pres Q (requestAppend (.member id)) := hw.ask id
theorem wk_commitNotify (id : Int) : Pres Q (commitNotify id) := by
  unfold commitNotify
  pres wpo using wk_requestAppend, wk_modPeer
  all_goals wk
theorem wk_requestAppendTo (id : Int) : Pres Q (requestAppendTo id) := by
  unfold requestAppendTo
  pres wpo using wk_requestAppend
  all_goals wk
theorem wk_askVote (ty : MsgType) (id : Int) (h : ty ≠ .appendReq ∧ ty ≠ .snpReq) : Pres Q (askVote ty id) := by
  unfold askVote
  pres wpo using wk_termForLog, wk_emit
  show (ty != .appendReq && ty != .snpReq) = true
  simp [h]
theorem wk_entryAt (i : Nat) : Pres Q (entryAt i) := by
  unfold entryAt
  pres wpo using wk_die
  all_goals wk
theorem wk_entryToApply (i : Nat) : Pres Q (entryToApply i) := by
  unfold entryToApply
  pres wpo using wk_die
  all_goals wk
theorem wk_restart : Pres Q restartElectionTimer := by
  unfold restartElectionTimer
  pres wpo using wk_mod
  all_goals wk
theorem wk_stop : Pres Q stopElectionTimer := by
  unfold stopElectionTimer
  pres wpo using wk_mod
  all_goals wk
theorem wk_enableHb (r : PeerRef) : Pres Q (enableHb r) := fun s => wk_setPeer s r _ fun _ => ⟨rfl, rfl⟩
theorem wk_becomeFollower : Pres Q becomeFollower := by
  intro s
  rw [run_becomeFollower]
  unfold Srv.stepDown
  exact wpo.trans (hw.peers (f := disableHb) fun _ => ⟨rfl, rfl⟩) (wpo.trans (hw.say (e := .event .becomeFollower) rfl)
    (hw.calm rfl rfl rfl (.inr rfl)))
theorem wk_commit (n : Nat) : Pres Q (commit n) := by
  unfold commit
  pres wpo using wk_mod, wk_emit, wk_peerIds, wk_commitNotify
  all_goals wk
theorem wk_requestAppendAll : Pres Q requestAppendAll := by
  unfold requestAppendAll
  pres wpo using wk_commit, wk_peerIds, wk_requestAppendTo
  all_goals wk
theorem wk_logAppend (e : Entry) : Pres Q (logAppend e) := by
  unfold logAppend
  pres wpo using wk_mod, wk_emit
  all_goals wk
theorem wk_logWriteAt (i : Nat) (e : Entry) : Pres Q (logWriteAt i e) := by
  unfold logWriteAt
  pres wpo using wk_mod, wk_emit
  all_goals wk
theorem wk_logApplyPack (i : Nat) (es : List Entry) : Pres Q (logApplyPack i es) := by
  unfold logApplyPack
  pres wpo using wk_mod, wk_emit
  all_goals wk
theorem wk_logCompact (i : Nat) : Pres Q (logCompact i) := by
  unfold logCompact
  pres wpo using wk_mod, wk_emit
  all_goals wk
theorem wk_initialConf : Pres Q initialConf := by
  unfold initialConf
  pres wpo using wk_mod, wk_logAppend
  all_goals wk
theorem wk_noJoin : Pres Q (modify fun s : Srv => { s with srvToJoin := none } : R PUnit) :=
  fun _ => hw.calm rfl rfl rfl (.inr rfl)
theorem wk_becomeLeader0 (h : ∀ i, Pres Q (leaderPeer i)) : Pres Q becomeLeader := by
  unfold becomeLeader
  pres wpo using wk_noJoin, wk_mod, wk_emit, wk_peerIds, h, wk_initialConf, wk_requestAppendAll, wk_stop
  all_goals wk
theorem wk_addPeer0
    (ha : ∀ (s : Srv) (p : Peer), p.busy = false → s.findPeer p.id = none → Q s { s with peers := s.peers ++ [p] }) (c : SrvCfg) : Pres Q (addPeer c) := by
  unfold addPeer
  have h0 : ∀ s : Srv, Q s (if (s.findPeer c.id).isSome then s else
      { s with peers := s.peers ++ [{ cfg := c, nextIdx := s.log.next, hbInterval := s.params.hbInterval }] }) := by
    intro s
    split
    · exact wpo.refl s
    · next h =>
      refine ha _ _ rfl ?_
      show s.findPeer c.id = none
      rcases hf : s.findPeer c.id with _ | p
      · rfl
      · rw [hf] at h; exact absurd rfl h
  pres wpo using wk_noJoin, (wk_mod h0), wk_enableHb, wk_modPeer
  all_goals wk
theorem wk_removePeer0 (hf : ∀ (s : Srv) (f : Peer → Bool), Q s { s with peers := s.peers.filter f })
    (c : Config) (i : Int) : Pres Q (removePeer c i) := by
  unfold removePeer
  pres wpo using wk_emit, wk_die, wk_mod
  · rfl
  · exact hf _ _
theorem wk_reconfigure0
    (ha : ∀ (s : Srv) (p : Peer), p.busy = false → s.findPeer p.id = none → Q s { s with peers := s.peers ++ [p] })
    (hf : ∀ (s : Srv) (f : Peer → Bool), Q s { s with peers := s.peers.filter f })
    (c : Config) : Pres Q (reconfigure c) := by
  unfold reconfigure
  pres wpo using (wk_addPeer0 ha), (wk_removePeer0 hf), wk_mod
  all_goals wk
theorem wk_handleJoin0
    (ha : ∀ (s : Srv) (p : Peer), p.busy = false → s.findPeer p.id = none → Q s { s with peers := s.peers ++ [p] })
    (hf : ∀ (s : Srv) (f : Peer → Bool), Q s { s with peers := s.peers.filter f })
    (r : Req) : Pres Q (handleJoin r) := by
  unfold handleJoin
  pres wpo using wk_mod, wk_saveState, (wk_reconfigure0 ha hf)
  all_goals wk
theorem wk_installSnapshot0
    (ha : ∀ (s : Srv) (p : Peer), p.busy = false → s.findPeer p.id = none → Q s { s with peers := s.peers ++ [p] })
    (hf : ∀ (s : Srv) (f : Peer → Bool), Q s { s with peers := s.peers.filter f })
    (q : Snap) : Pres Q (installSnapshot q) := by
  unfold installSnapshot
  pres wpo using wk_die, wk_logCompact, wk_stop, wk_emit, wk_mod, (wk_reconfigure0 ha hf), wk_saveState, wk_restart
  all_goals wk
theorem wk_commitConf0
    (ha : ∀ (s : Srv) (p : Peer), p.busy = false → s.findPeer p.id = none → Q s { s with peers := s.peers ++ [p] })
    (hf : ∀ (s : Srv) (f : Peer → Bool), Q s { s with peers := s.peers.filter f })
    (c : Config) : Pres Q (commitConf c) := by
  unfold commitConf
  pres wpo using wk_emit, wk_mod, (wk_reconfigure0 ha hf)
  all_goals wk
theorem wk_findConf (i : Nat) : ∀ (n : Nat) (c : Config), Pres Q (findConf i n c)
  | 0, _ => pres_throw wpo _
  | n + 1, c => by
    have ih := wk_findConf i n
    unfold findConf
    pres wpo using wk_entryAt, ih
theorem wk_confForSnap (i : Nat) : Pres Q (confForSnap i) := by
  unfold confForSnap
  pres wpo using wk_findConf, wk_die
  all_goals wk
theorem wk_keepSnap (q : Snap) : Pres Q (keepSnap q) := by
  unfold keepSnap
  pres wpo using wk_mod, wk_emit
  all_goals wk

end

variable {Q : Srv → Srv → Prop} {x : Input} [hw : Walk Q x]
include hw

theorem wk_becomeLeader : Pres Q becomeLeader := hw.lead
theorem wk_updateTerm (t : Nat) : Pres Q (updateTerm t) := by
  unfold updateTerm
  pres wpo using wk_mod, wk_saveState, wk_becomeFollower
  all_goals wk
theorem wk_voteSelf : Pres Q voteSelf := by
  unfold voteSelf
  pres wpo using wk_mod, wk_saveState
  all_goals wk
theorem wk_askForVotes : Pres Q askForVotes := by
  unfold askForVotes
  pres wpo using wk_mod, wk_becomeLeader, wk_peerIds, wk_askVote
  all_goals first | wk | exact ⟨by decide, by decide⟩
theorem wk_rearm : Pres Q rearm := by
  unfold rearm
  pres wpo using wk_restart
  all_goals wk
theorem wk_startTerm : Pres Q startTerm := by
  unfold startTerm
  pres wpo using wk_mod, wk_saveState
  all_goals wk
theorem wk_becomeCandidate : Pres Q becomeCandidate := by
  unfold becomeCandidate requestVote
  pres wpo using wk_startTerm, wk_voteSelf, wk_askForVotes, wk_rearm
theorem wk_requestPrevote : Pres Q requestPrevote := by
  unfold requestPrevote
  pres wpo using wk_becomeCandidate, wk_mod, wk_peerIds, wk_askVote
  all_goals first | wk | exact ⟨by decide, by decide⟩
theorem wk_leaveConfig : Pres Q leaveConfig := by
  unfold leaveConfig
  pres wpo using wk_mod, wk_emit
  all_goals wk
theorem wk_handleElectionTimeout : Pres Q handleElectionTimeout := by
  unfold handleElectionTimeout
  pres wpo using wk_mod, wk_leaveConfig, wk_die, wk_restart, wk_requestPrevote, wk_becomeCandidate
  all_goals wk
theorem wk_handleHbTimeout (id : Int) : Pres Q (handleHbTimeout (.member id)) := by
  unfold handleHbTimeout
  pres wpo using wk_modPeer, wk_requestAppend
  all_goals wk

/-! ## Requests -/

theorem wk_skipSame : ∀ (es : List Entry) (i : Nat), Pres Q (skipSame i es)
  | [], _ => pres_pure wpo _
  | e :: es, i => by
    have ih := wk_skipSame es
    unfold skipSame
    pres wpo using wk_termAt, ih
theorem wk_rollbackOld (i : Nat) : Pres Q (rollbackOld i) := by
  unfold rollbackOld
  pres wpo using wk_entryAt, wk_emit, wk_mod
  all_goals wk
theorem wk_noteNew (i : Nat) (e : Entry) : Pres Q (noteNew i e) := by
  unfold noteNew
  pres wpo using wk_emit, wk_mod
  all_goals wk
theorem wk_overwriteOld : ∀ (es : List Entry) (i : Nat), Pres Q (overwriteOld i es)
  | [], _ => pres_pure wpo _
  | e :: es, i => by
    have ih := wk_overwriteOld es
    unfold overwriteOld
    pres wpo using wk_rollbackOld, wk_logWriteAt, wk_noteNew, ih
theorem wk_appendNew : ∀ (es : List Entry), Pres Q (appendNew es)
  | [] => pres_pure wpo _
  | e :: es => by
    have ih := wk_appendNew es
    unfold appendNew
    pres wpo using wk_logAppend, wk_noteNew, ih
theorem wk_storeEntries (r : Req) : Pres Q (storeEntries r) := by
  unfold storeEntries
  pres wpo using wk_skipSame, wk_overwriteOld, wk_appendNew
  all_goals wk
theorem wk_hearLeader (r : Req) : Pres Q (hearLeader r) := by
  unfold hearLeader
  pres wpo using wk_becomeFollower, wk_die, wk_restart
  all_goals wk
theorem wk_logOkay (r : Req) : Pres Q (logOkay r) := by
  unfold logOkay
  pres wpo using wk_termForLog
  all_goals wk
theorem wk_handleAppendEntries (r : Req) : Pres Q (handleAppendEntries r) := by
  unfold handleAppendEntries
  pres wpo using wk_hearLeader, wk_logOkay, wk_storeEntries, wk_mod, wk_commit
  all_goals wk
theorem wk_handleVoteReq (r : Req) : Pres Q (handleVoteReq r) := by
  unfold handleVoteReq
  pres wpo using wk_mod, wk_saveState
  all_goals wk
theorem wk_handlePrevoteReq (r : Req) : Pres Q (handlePrevoteReq r) := by
  unfold handlePrevoteReq
  pres wpo using wk_mod
  all_goals wk
theorem wk_isLeader : Pres Q isLeader := by
  unfold isLeader
  refine pres_getBind fun s => ?_
  by_cases h : s.role = .leader ∧ 0 < s.peers.length ∧ s.params.electionUpper * 2 < s.elapsed
  · simp only [if_pos h]
    have h1 : Q s { s with elapsed := toI32 ((s.now : Int) - quorumResp s) } :=
      hw.calm rfl rfl rfl (.inl rfl)
    rw [bind_modify]
    generalize { s with elapsed := toI32 ((s.now : Int) - quorumResp s) } = s1 at h1 ⊢
    have h2 : Pres Q (do
        let s ← get
        if s.params.electionUpper * 2 < s.elapsed then pure false
        else pure (decide (s.role = .leader)) : R Bool) := by
      pres wpo using wk_emit
    exact wpo.trans h1 (h2 s1)
  · simp only [if_neg h]
    exact wpo.refl s
theorem wk_appendClient : ∀ (es : List Entry), Pres Q (appendClient es)
  | [] => pres_pure wpo _
  | e :: es => by
    have ih := wk_appendClient es
    unfold appendClient
    pres wpo using wk_logAppend, wk_emit, ih
    all_goals wk
theorem wk_handleCliReq (r : Req) : Pres Q (handleCliReq r) := by
  unfold handleCliReq
  pres wpo using wk_isLeader, wk_appendClient, wk_requestAppendAll
  all_goals wk
theorem wk_handleSnapshotSync (q : SnpSync) : Pres Q (handleSnapshotSync q) := by
  unfold handleSnapshotSync
  pres wpo using wk_emit, wk_die, hw.inst
  all_goals wk
theorem wk_hearSnapshotLeader (r : Req) : Pres Q (hearSnapshotLeader r) := by
  unfold hearSnapshotLeader
  pres wpo using wk_becomeFollower, wk_die, wk_restart
  all_goals wk
theorem wk_handleInstallSnapshot (r : Req) : Pres Q (handleInstallSnapshot r) := by
  unfold handleInstallSnapshot
  pres wpo using wk_hearSnapshotLeader, wk_handleSnapshotSync
theorem wk_handleRmSrv (r : Req) : Pres Q (handleRmSrv r) := by
  unfold handleRmSrv
  pres wpo using wk_emit
  all_goals wk
theorem wk_inviteSrv : Pres Q inviteSrv := by
  unfold inviteSrv
  pres wpo using wk_getPeer, wk_emit
  all_goals wk
theorem wk_handleAddSrv (r : Req) (hx : x = .req r) (ht : r.type = .addReq) : Pres Q (handleAddSrv r) := by
  unfold handleAddSrv
  refine pres_getBind fun s => ?_
  show At Q s _
  split
  · next t c he =>
    split
    · exact wpo.refl s
    · have h0 : Pres Q (modify fun s : Srv =>
          { s with srvToJoin := some { cfg := c, hbInterval := s.params.hbInterval } } : R PUnit) :=
        fun s => hw.invite t c r hx ht he
      have h1 : ∀ q : Resp, Pres Q (do
          modify fun s => { s with confToAdd := some c }
          modify fun s => { s with srvToJoin := some { cfg := c, hbInterval := s.params.hbInterval } }
          inviteSrv
          pure q : R Resp) := by
        intro q
        pres wpo using h0, wk_mod, wk_inviteSrv
        all_goals wk
      exact h1 _ s
  · exact wpo.refl s
theorem wk_handleLogSync (r : Req) : Pres Q (handleLogSync r) := by
  unfold handleLogSync
  pres wpo using wk_logApplyPack, wk_commit
  all_goals wk
theorem wk_handleLeave (r : Req) : Pres Q (handleLeave r) := by
  unfold handleLeave
  pres wpo using wk_mod
  all_goals wk
theorem wk_hearTerm (r : Req) : Pres Q (hearTerm r) := by
  unfold hearTerm
  pres wpo using wk_updateTerm, wk_mod
  all_goals wk

/-! ## Responses -/
theorem wk_acceptedResp (r : Resp) : Pres Q (acceptedResp r) := by
  unfold acceptedResp
  pres wpo using wk_modPeer, wk_commit, wk_getPeer
  all_goals wk
theorem wk_refusedResp (r : Resp) : Pres Q (refusedResp r) := by
  unfold refusedResp
  pres wpo using wk_modPeer
  all_goals wk
theorem wk_handleAppendResp (r : Resp) : Pres Q (handleAppendResp r) := by
  unfold handleAppendResp
  pres wpo using wk_acceptedResp, wk_refusedResp, wk_requestAppendTo
theorem wk_acceptedSnpResp (r : Resp) : Pres Q (acceptedSnpResp r) := by
  unfold acceptedSnpResp
  pres wpo using wk_modPeer, wk_getPeer
  all_goals wk
theorem wk_handleSnpResp (r : Resp) : Pres Q (handleSnpResp r) := by
  unfold handleSnpResp
  pres wpo using wk_acceptedSnpResp, wk_requestAppendTo
theorem wk_handleVotingResp (r : Resp) : Pres Q (handleVotingResp r) := by
  unfold handleVotingResp
  pres wpo using wk_mod, wk_becomeLeader
  all_goals wk
theorem wk_dispatchResp (r : Resp) : Pres Q (dispatchResp r) := by
  unfold dispatchResp
  split
  · exact wk_handleVotingResp r
  all_goals pres wpo using wk_handleAppendResp, wk_handleSnpResp, wk_die
theorem wk_handlePeerResp (r : Resp) : Pres Q (handlePeerResp r) := by
  unfold handlePeerResp
  pres wpo using wk_modPeer, wk_updateTerm, wk_dispatchResp
  all_goals wk
theorem wk_handlePrevoteResp (r : Resp) : Pres Q (handlePrevoteResp r) := by
  unfold handlePrevoteResp
  pres wpo using wk_mod, wk_becomeCandidate, wk_restart
  all_goals wk
theorem wk_addToConfig : Pres Q addToConfig := by
  unfold addToConfig
  pres wpo using wk_logAppend, wk_mod, wk_requestAppendAll
  all_goals wk
theorem wk_syncLogToNewSrv (i : Nat) : Pres Q (syncLogToNewSrv i) := by
  unfold syncLogToNewSrv
  pres wpo using wk_addToConfig, hw.sync, wk_getPeer, wk_emit
  all_goals wk
theorem wk_rmSrvFromCluster (i : Int) : Pres Q (rmSrvFromCluster i) := by
  unfold rmSrvFromCluster
  pres wpo using wk_logAppend, wk_mod, wk_requestAppendAll
  all_goals wk
theorem wk_handleExtSnpResp (r : Resp) : Pres Q (handleExtSnpResp r) := by
  unfold handleExtSnpResp
  pres wpo using wk_die, wk_modPeer, wk_getPeer, wk_syncLogToNewSrv
  all_goals wk
theorem wk_handleExtResp (r : Resp) : Pres Q (handleExtResp r) := by
  unfold handleExtResp
  refine pres_getBind fun s => ?_
  have h1 : Pres Q (do
      modPeer .joining fun p => { p with nextIdx := r.nextIdx, matched := subU64 r.nextIdx 1 }
      syncLogToNewSrv r.nextIdx : R Unit) := by
    pres wpo using wk_modPeer, wk_syncLogToNewSrv
    all_goals wk
  show At Q s _
  split
  · split
    · exact wpo.refl s
    · exact wpo.trans (wk_setPeer s .joining (resumeHb s.params) fun _ => ⟨rfl, rfl⟩) (h1 _)
  · split
    · exact wpo.refl s
    · split
      · exact wk_syncLogToNewSrv _ s
      · exact wpo.refl s
  · split
    · exact wk_rmSrvFromCluster _ s
    · exact wpo.refl s
  · exact wk_handleExtSnpResp r s
  · exact wk_handlePrevoteResp r s
  · exact wk_die _ s
theorem wk_forceRemove (p : PeerRef) (r : Req) (hx : x = .extErr p r) (ht : r.type = .leaveReq) :
    Pres Q (forceRemove r.dst) := by
  unfold forceRemove
  refine pres_bind wpo (fun s => ?_) fun _ => wk_rmSrvFromCluster r.dst
  show Q s { s with peers := if s.peers.length = 1 then s.peers.filter fun p => p.id != r.dst else s.peers }
  split
  · next h => exact hw.force p r hx ht h
  · exact wpo.refl s
theorem wk_handleExtErr (p : PeerRef) (r : Req) (hx : x = .extErr p r) : Pres Q (handleExtErr r) := by
  unfold handleExtErr
  refine pres_getBind fun s => ?_
  show At Q s _
  split
  · next ht =>
    split
    · exact wpo.refl s
    · split
      · exact wk_forceRemove p r hx ht s
      · exact wk_modPeer _ (slowDownHb s.params) (fun _ => ⟨rfl, rfl⟩) s
  · split
    · exact wpo.refl s
    · split
      · exact hw.calm rfl rfl rfl (.inr rfl)
      · exact wk_modPeer _ (slowDownHb s.params) (fun _ => ⟨rfl, rfl⟩) s
  · split
    · exact wpo.refl s
    · split
      · exact hw.calm rfl rfl rfl (.inr rfl)
      · exact wk_modPeer _ (slowDownHb s.params) (fun _ => ⟨rfl, rfl⟩) s
  · exact wpo.refl s
theorem wk_retryReq (r : Req) : Pres Q (retryReq r) := by
  unfold retryReq
  split
  · next h =>
    refine wk_emit _ ?_
    show (r.type != .appendReq && r.type != .snpReq) = true
    rcases h with h | h | h <;> rw [h] <;> rfl
  · exact pres_pure wpo _

/-! ## Commit thread and application -/
theorem wk_applyEntry (i : Nat) (e : Entry) : Pres Q (applyEntry i e) := by
  unfold applyEntry
  pres wpo using wk_emit, hw.conf
  all_goals wk
theorem wk_applyOne (hx : x = .apply) : Pres Q applyOne := by
  have hs := fun i => hw.snap i hx
  unfold applyOne
  pres wpo using wk_mod, wk_entryToApply, wk_applyEntry, hs
  all_goals wk
theorem wk_replicateLog (d : Nat) : Pres Q (replicateLog d) := by
  unfold replicateLog
  pres wpo using wk_isLeader, wk_logAppend, wk_requestAppendAll
  all_goals wk

/-! ## Whole inputs -/
theorem wk_dispatch (r : Req) (hx : x = .req r) : Pres Q (dispatch r) := by
  have h1 : Pres Q (handleExtended r) := by
    unfold handleExtended
    split
    · next h => exact wk_handleAddSrv r hx h
    · exact wk_handleRmSrv r
    · exact wk_handleLogSync r
    · next h => exact hw.join r hx h
    · exact wk_handleLeave r
    · exact wk_handleInstallSnapshot r
    · exact wk_handlePrevoteReq r
    · exact wk_die _
  unfold dispatch
  pres wpo using wk_handleAppendEntries, wk_handleVoteReq, wk_handleCliReq, h1

/-- What is done about an input, but for the bookkeeping of answers. -/
def Input.rest : Input → R Unit
  | .peerResp _ r => handlePeerResp r
  | .extResp _ _ r => handleExtResp r
  | .peerErr _ => pure ()
  | .extErr _ r => handleExtErr r
  | x => x.run

/-- Every input is covered. -/
theorem wk_rest : Pres Q x.rest := by
  have hw' := hw
  cases x with
  | req r =>
    show Pres _ (processReq r >>= fun resp => emit (.reply resp))
    unfold processReq
    exact pres_bind wpo (pres_bind wpo (wk_hearTerm r) fun _ => wk_dispatch r rfl) fun q => wk_emit _ rfl
  | peerResp ty r => exact wk_handlePeerResp r
  | extResp p ty r => exact wk_handleExtResp r
  | peerErr r => exact pres_pure wpo _
  | extErr p r => exact wk_handleExtErr p r rfl
  | retry r => exact wk_retryReq r
  | electionTimeout => exact wk_handleElectionTimeout
  | hbTimeout id => exact wk_handleHbTimeout _
  | apply => exact wk_applyOne rfl
  | snapDone q ok =>
    cases ok
    · exact hw.done q false rfl
    · exact pres_bind wpo (wk_keepSnap q) fun _ => hw.done q true rfl
  | replicate d => exact pres_bind wpo (wk_replicateLog d) fun _ => pres_pure wpo _
  | tick n => exact wk_mod fun s => hw.calm rfl rfl rfl (.inl rfl)

end Cs.Raft
