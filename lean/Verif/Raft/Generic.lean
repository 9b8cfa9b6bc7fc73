import Verif.Raft.Commits
import Verif.Raft.Steps

/-!
# Relations that look at term, votes and replication progress

`Prims Q x`: what has to be checked to know that the relation `Q` holds between the states before and after input `x`.
-/

namespace Cs.Raft
open Cs

/-- Inputs after which the set of peers can be another one. -/
def Input.reconfigures : Input → Bool
  | .apply => true
  | .extErr _ _ => true
  | .req r => r.type == .snpReq || r.type == .joinReq
  | _ => false

/-- What a peer is, and what it is known to have. -/
def Peer.key (p : Peer) : SrvCfg × Nat := (p.cfg, p.matched)

/-- No change of term, votes and progress of the peers. -/
structure Calm (s s' : Srv) : Prop where
  id : s'.id = s.id
  term : s'.term = s.term
  votes : s'.votesGranted = s.votesGranted
  voted : s'.voted = s.voted
  completed : s'.electionCompleted = s.electionCompleted
  peers : s'.peers.map Peer.key = s.peers.map Peer.key
  trace : ∃ es, s'.trace = s.trace ++ es ∧ ∀ t, Eff.lead t ∉ es

theorem Calm.of {s s' : Srv} (h1 : s'.id = s.id) (h2 : s'.term = s.term) (h3 : s'.votesGranted = s.votesGranted)
    (h4 : s'.voted = s.voted) (h5 : s'.electionCompleted = s.electionCompleted)
    (h6 : s'.peers.map Peer.key = s.peers.map Peer.key) (h7 : s'.trace = s.trace) : Calm s s' :=
  ⟨h1, h2, h3, h4, h5, h6, [], by rw [h7]; simp, by simp⟩

/-- The steps of all handlers. -/
class Prims (Q : Srv → Srv → Prop) (x : outParam Input) : Prop where
  po : PO Q
  calm {s s' : Srv} : Calm s s' → Q s s'
  /-- a new term -/
  raise {s : Srv} {t : Nat} : s.term < t →
    Q s { s with term := t, vote := -1, electionCompleted := false, votesGranted := 0, voted := [] }
  /-- the vote for itself -/
  self {s : Srv} : s.votesGranted = 0 → s.voted = [] → Q s { s with votesGranted := 1, voted := [s.id] }
  /-- an answer to a vote request -/
  count {s : Srv} {ty : MsgType} {r : Resp} {b : Bool} : x = .peerResp ty r → r.type = .voteResp → r.term = s.term →
    s.electionCompleted = false → r.src ∉ s.voted → (s.findPeer r.src).isSome = true →
    Q s { s with
      voted := r.src :: s.voted, votesGranted := if r.accepted then s.votesGranted + 1 else s.votesGranted,
      electionCompleted := b }
  /-- the election is over -/
  complete {s : Srv} : Q s { s with electionCompleted := true }
  /-- the leader role -/
  lead {s : Srv} : x.reconfigures = false → (s.peers.length + 1) / 2 < s.votesGranted →
    Q s { s with trace := s.trace ++ [.lead s.term] }
  /-- an accepted answer to an append request -/
  acked {s : Srv} {ty : MsgType} {r : Resp} : x = .peerResp ty r → r.type = .appendResp → r.accepted = true →
    Q s (s.setPeer (.member r.src) fun p => { p with nextIdx := r.nextIdx, matched := subU64 r.nextIdx 1 })
  /-- the answer to the last block of a snapshot -/
  snapped {s : Srv} {ty : MsgType} {r : Resp} {p : Peer} {snp : Snap} {off : Nat} : x = .peerResp ty r →
    r.type = .snpResp → r.accepted = true → s.peer (.member r.src) = some p → p.snpCtx = some (snp, off) →
    snp.size ≤ r.nextIdx →
    Q s (s.setPeer (.member r.src) fun p =>
      { p with nextIdx := snp.lastIdx + 1, matched := snp.lastIdx, snpCtx := none, pending := false })
  /-- a server is added -/
  addPeer {s : Srv} {p : Peer} : x.reconfigures = true → p.matched = 0 → s.findPeer p.id = none → p.id ≠ s.id →
    Q s { s with peers := s.peers ++ [p] }
  /-- an invitation to join -/
  join {s : Srv} {t : Nat} : x.isJoin = true → Q s { s with term := t }
  /-- servers are removed -/
  filter {s : Srv} {f : Peer → Bool} : x.reconfigures = true → Q s { s with peers := s.peers.filter f }

variable {Q : Srv → Srv → Prop} {x : Input} [hprims : Prims Q x]
include hprims

theorem gpo : PO Q := Prims.po

theorem gq_mod {f : Srv → Srv} (h : ∀ s, Calm s (f s)) : Pres Q (modify f : R PUnit) := fun s => Prims.calm (h s)

omit hprims in
/-- Effects other than the mark for a new leader. -/
def Eff.NotLead : Eff → Prop
  | .lead _ => False
  | _ => True

theorem gq_emit {e : Eff} (h : e.NotLead) : Pres Q (emit e) := fun s =>
  Prims.calm ⟨rfl, rfl, rfl, rfl, rfl, rfl, [e], rfl, by
    intro t ht; rw [← List.mem_singleton.1 ht] at h; exact h⟩

omit hprims in
theorem calm_setPeer (s : Srv) (r : PeerRef) (f : Peer → Peer)
    (hf : ∀ p, (f p).cfg = p.cfg ∧ (f p).matched = p.matched) : Calm s (s.setPeer r f) := by
  cases r with
  | member id =>
    refine .of rfl rfl rfl rfl rfl ?_ rfl
    show (s.peers.map fun p => if p.id == id then f p else p).map Peer.key = _
    rw [List.map_map]
    apply List.map_congr_left
    intro p _
    show Peer.key (if p.id == id then f p else p) = p.key
    split
    · unfold Peer.key; rw [(hf p).1, (hf p).2]
    · rfl
  | joining => exact .of rfl rfl rfl rfl rfl rfl rfl

theorem gq_die {α : Type} (c : Int) : Pres Q (die c : R α) := by
  unfold die
  pres gpo using gq_emit
  trivial

theorem gq_saveState : Pres Q saveState := fun s => Prims.calm ⟨rfl, rfl, rfl, rfl, rfl, rfl, [_], rfl, by simp⟩

theorem gq_modPeer (r : PeerRef) (f : Peer → Peer) (hf : ∀ p, (f p).cfg = p.cfg ∧ (f p).matched = p.matched) :
    Pres Q (modPeer r f) := fun s => Prims.calm (calm_setPeer s r f hf)

theorem gq_getPeer (r : PeerRef) : Pres Q (getPeer r) := by
  unfold getPeer
  pres gpo using gq_die
theorem gq_peerIds : Pres Q peerIds := fun s => gpo.refl s
theorem gq_termAt (i : Nat) : Pres Q (termAt i) := by
  unfold termAt
  pres gpo using gq_die
theorem gq_termForLog (i : Nat) : Pres Q (termForLog i) := by
  unfold termForLog
  pres gpo using gq_die, gq_termAt
theorem gq_chooseSnap (r : PeerRef) (i : Nat) : Pres Q (chooseSnap r i) := by
  unfold chooseSnap
  pres gpo using gq_die, gq_getPeer, gq_modPeer
  exact ⟨rfl, rfl⟩
theorem gq_createSync (r : PeerRef) (i t c : Nat) : Pres Q (createSyncSnapshotReq r i t c) := by
  unfold createSyncSnapshotReq
  pres gpo using gq_die, gq_getPeer, gq_chooseSnap
theorem gq_entriesFrom (i : Nat) : Pres Q (entriesFrom i) := by
  unfold entriesFrom
  pres gpo using gq_die
theorem gq_appendReqFrom (r : PeerRef) (i : Nat) : Pres Q (appendReqFrom r i) := by
  unfold appendReqFrom
  pres gpo using gq_termForLog, gq_entriesFrom, gq_getPeer
theorem gq_createAppendReq (r : PeerRef) : Pres Q (createAppendReq r) := by
  unfold createAppendReq
  pres gpo using gq_die, gq_getPeer, gq_modPeer, gq_createSync, gq_appendReqFrom
  all_goals exact ⟨rfl, rfl⟩
theorem gq_requestAppend (r : PeerRef) : Pres Q (requestAppend r) := by
  unfold requestAppend
  pres gpo using gq_getPeer, gq_modPeer, gq_createAppendReq, gq_emit
  all_goals first | exact ⟨rfl, rfl⟩ | trivial
theorem gq_commitNotify (id : Int) : Pres Q (commitNotify id) := by
  unfold commitNotify
  pres gpo using gq_requestAppend, gq_modPeer
  exact ⟨rfl, rfl⟩
theorem gq_requestAppendTo (id : Int) : Pres Q (requestAppendTo id) := by
  unfold requestAppendTo
  pres gpo using gq_requestAppend
theorem gq_askVote (ty : MsgType) (id : Int) : Pres Q (askVote ty id) := by
  unfold askVote
  pres gpo using gq_termForLog, gq_emit
  trivial
theorem gq_entryAt (i : Nat) : Pres Q (entryAt i) := by
  unfold entryAt
  pres gpo using gq_die
theorem gq_entryToApply (i : Nat) : Pres Q (entryToApply i) := by
  unfold entryToApply
  pres gpo using gq_die
theorem gq_restart : Pres Q restartElectionTimer := by
  unfold restartElectionTimer
  pres gpo using gq_mod
  exact .of rfl rfl rfl rfl rfl rfl rfl
theorem gq_stop : Pres Q stopElectionTimer := by
  unfold stopElectionTimer
  pres gpo using gq_mod
  exact .of rfl rfl rfl rfl rfl rfl rfl
theorem gq_enableHb (r : PeerRef) : Pres Q (enableHb r) := by
  unfold enableHb
  pres gpo using gq_modPeer
  exact ⟨rfl, rfl⟩
theorem gq_leaderPeer (id : Int) : Pres Q (leaderPeer id) := by
  unfold leaderPeer
  pres gpo using gq_modPeer, gq_enableHb
  exact ⟨rfl, rfl⟩
theorem gq_becomeFollower : Pres Q becomeFollower := by
  unfold becomeFollower
  pres gpo using gq_mod, gq_restart, gq_emit
  all_goals first
    | trivial
    | exact .of rfl rfl rfl rfl rfl rfl rfl
    | exact .of rfl rfl rfl rfl rfl (by rw [List.map_map]; rfl) rfl
theorem gq_commit (n : Nat) : Pres Q (commit n) := by
  unfold commit
  pres gpo using gq_mod, gq_emit, gq_peerIds, gq_commitNotify
  all_goals first | trivial | exact .of rfl rfl rfl rfl rfl rfl rfl
theorem gq_requestAppendAll : Pres Q requestAppendAll := by
  unfold requestAppendAll
  pres gpo using gq_commit, gq_peerIds, gq_requestAppendTo
theorem gq_logAppend (e : Entry) : Pres Q (logAppend e) := by
  unfold logAppend
  pres gpo using gq_mod, gq_emit
  all_goals first | trivial | exact .of rfl rfl rfl rfl rfl rfl rfl
theorem gq_logWriteAt (i : Nat) (e : Entry) : Pres Q (logWriteAt i e) := by
  unfold logWriteAt
  pres gpo using gq_mod, gq_emit
  all_goals first | trivial | exact .of rfl rfl rfl rfl rfl rfl rfl
theorem gq_logApplyPack (i : Nat) (es : List Entry) : Pres Q (logApplyPack i es) := by
  unfold logApplyPack
  pres gpo using gq_mod, gq_emit
  all_goals first | trivial | exact .of rfl rfl rfl rfl rfl rfl rfl
theorem gq_logCompact (i : Nat) : Pres Q (logCompact i) := by
  unfold logCompact
  pres gpo using gq_mod, gq_emit
  all_goals first | trivial | exact .of rfl rfl rfl rfl rfl rfl rfl
theorem gq_initialConf : Pres Q initialConf := by
  unfold initialConf
  pres gpo using gq_mod, gq_logAppend
  all_goals exact .of rfl rfl rfl rfl rfl rfl rfl
theorem gq_leaderRest : Pres Q (do
    modify fun s => { s with leader := s.id }
    modify fun s => { s with srvToJoin := none }
    let ids ← peerIds
    forEach leaderPeer ids
    initialConf
    emit (.event .becomeLeader)
    requestAppendAll : R Unit) := by
  pres gpo using gq_mod, gq_emit, gq_peerIds, gq_leaderPeer, gq_initialConf, gq_requestAppendAll
  all_goals first | trivial | exact .of rfl rfl rfl rfl rfl rfl rfl
theorem gq_becomeLeader (hx : x.reconfigures = false) (s : Srv) (hv : (s.peers.length + 1) / 2 < s.votesGranted) :
    Q s (becomeLeader s).2 := by
  unfold becomeLeader
  refine gpo.trans (b := { s with armed := false, role := .leader, trace := s.trace ++ [.lead s.term] }) ?_
    (gq_leaderRest _)
  exact gpo.trans (b := { s with armed := false, role := .leader }) (Prims.calm (.of rfl rfl rfl rfl rfl rfl rfl))
    (Prims.lead (x := x) (s := { s with armed := false, role := .leader }) hx hv)
theorem gq_updateTerm (t : Nat) : Pres Q (updateTerm t) := by
  intro s
  unfold updateTerm
  rw [bind_get]
  by_cases h : s.term < t
  · rw [if_pos h, bind_modify, bind_modify]
    refine gpo.trans (b := { s with
        term := t, vote := -1, electionCompleted := false, votesGranted := 0, voted := [] }) (Prims.raise (x := x) h) ?_
    exact pres_bind gpo gq_saveState (fun _ => pres_bind gpo gq_becomeFollower fun _ => pres_pure gpo _) _
  · rw [if_neg h]; exact gpo.refl s

theorem gq_voteSelf (s : Srv) (h1 : s.votesGranted = 0) (h2 : s.voted = []) : Q s (voteSelf s).2 := by
  unfold voteSelf
  rw [bind_modify, bind_saveState, bind_modify]
  have e1 : Q s { s with vote := s.id, trace := s.trace ++ [.saveState s.term s.id] } :=
    Prims.calm ⟨rfl, rfl, rfl, rfl, rfl, rfl, [_], rfl, by simp⟩
  have e2 := Prims.self (Q := Q) (s := { s with vote := s.id, trace := s.trace ++ [.saveState s.term s.id] }) h1 h2
  refine gpo.trans (gpo.trans e1 e2) ?_
  have e3 : (modify fun s : Srv => { s with voted := if s.id ∈ s.voted then s.voted else s.id :: s.voted } : R Unit)
      { s with vote := s.id, trace := s.trace ++ [.saveState s.term s.id], votesGranted := s.votesGranted + 1 } =
      (.ok ⟨⟩, { s with
        vote := s.id, trace := s.trace ++ [.saveState s.term s.id], votesGranted := 1, voted := [s.id] }) := by
    show (_, _) = _
    rw [h1, h2]
    rfl
  show Q _ ((modify fun s : Srv => { s with voted := if s.id ∈ s.voted then s.voted else s.id :: s.voted } : R Unit) _).2
  rw [e3]
  exact gpo.refl _
theorem gq_askForVotes (hx : x.reconfigures = false) : Pres Q askForVotes := by
  unfold askForVotes
  refine pres_getBind fun s => ?_
  by_cases h : (s.peers.length + 1) / 2 < s.votesGranted
  · rw [if_pos h, bind_modify]
    exact gpo.trans (Prims.complete (s := s)) (gq_becomeLeader hx { s with electionCompleted := true } h)
  · rw [if_neg h]
    exact pres_bind gpo gq_peerIds (fun _ => pres_forEach gpo (gq_askVote _) _) s

theorem gq_rearm : Pres Q rearm := by
  unfold rearm
  pres gpo using gq_restart

theorem gq_startTerm : Pres Q startTerm := by
  intro s
  unfold startTerm
  rw [bind_modify, bind_modify, bind_modify, bind_modify]
  have e1 := Prims.raise (Q := Q) (s := s) (t := s.term + 1) (Nat.lt_succ_self _)
  refine gpo.trans e1 (gpo.trans ?_ (gq_saveState _))
  exact Prims.calm (.of rfl rfl rfl rfl rfl rfl rfl)
theorem gq_becomeCandidate (hx : x.reconfigures = false) : Pres Q becomeCandidate := by
  intro s
  unfold becomeCandidate requestVote
  refine gpo.trans (gq_startTerm s) ?_
  show Q _ (((voteSelf >>= fun _ => askForVotes) >>= fun _ => rearm) (startTerm s).2).2
  have h1 := gq_voteSelf (Q := Q) (startTerm s).2 rfl rfl
  have h2 : Pres Q (askForVotes >>= fun _ => rearm) := pres_bind gpo (gq_askForVotes hx) fun _ => gq_rearm
  refine gpo.trans h1 ?_
  have h3 := h2 (voteSelf (startTerm s).2).2
  exact h3

theorem gq_requestPrevote (hx : x.reconfigures = false) : Pres Q requestPrevote := by
  unfold requestPrevote
  pres gpo using (gq_becomeCandidate hx), gq_mod, gq_peerIds, gq_askVote
  all_goals exact .of rfl rfl rfl rfl rfl rfl rfl
theorem gq_leaveConfig : Pres Q leaveConfig := by
  unfold leaveConfig
  pres gpo using gq_mod, gq_emit
  all_goals first | trivial | exact .of rfl rfl rfl rfl rfl rfl rfl
theorem gq_handleElectionTimeout (hx : x.reconfigures = false) : Pres Q handleElectionTimeout := by
  unfold handleElectionTimeout
  pres gpo using gq_mod, gq_leaveConfig, gq_die, gq_restart, (gq_requestPrevote hx), (gq_becomeCandidate hx)
  all_goals exact .of rfl rfl rfl rfl rfl rfl rfl
theorem gq_handleHbTimeout (r : PeerRef) : Pres Q (handleHbTimeout r) := by
  unfold handleHbTimeout
  pres gpo using gq_modPeer, gq_requestAppend
  all_goals first | exact ⟨rfl, rfl⟩ | (split <;> exact ⟨rfl, rfl⟩)
/-! ## Requests -/

theorem gq_skipSame : ∀ (es : List Entry) (i : Nat), Pres Q (skipSame i es)
  | [], _ => pres_pure gpo _
  | e :: es, i => by
    have ih := gq_skipSame es
    unfold skipSame
    pres gpo using gq_termAt, ih
theorem gq_rollbackOld (i : Nat) : Pres Q (rollbackOld i) := by
  unfold rollbackOld
  pres gpo using gq_entryAt, gq_emit, gq_mod
  all_goals first | trivial | exact .of rfl rfl rfl rfl rfl rfl rfl
theorem gq_noteNew (i : Nat) (e : Entry) : Pres Q (noteNew i e) := by
  unfold noteNew
  pres gpo using gq_emit, gq_mod
  all_goals first | trivial | exact .of rfl rfl rfl rfl rfl rfl rfl
theorem gq_overwriteOld : ∀ (es : List Entry) (i : Nat), Pres Q (overwriteOld i es)
  | [], _ => pres_pure gpo _
  | e :: es, i => by
    have ih := gq_overwriteOld es
    unfold overwriteOld
    pres gpo using gq_rollbackOld, gq_logWriteAt, gq_noteNew, ih
theorem gq_appendNew : ∀ (es : List Entry), Pres Q (appendNew es)
  | [] => pres_pure gpo _
  | e :: es => by
    have ih := gq_appendNew es
    unfold appendNew
    pres gpo using gq_logAppend, gq_noteNew, ih
theorem gq_storeEntries (r : Req) : Pres Q (storeEntries r) := by
  unfold storeEntries
  pres gpo using gq_skipSame, gq_overwriteOld, gq_appendNew
theorem gq_hearLeader (r : Req) : Pres Q (hearLeader r) := by
  unfold hearLeader
  pres gpo using gq_becomeFollower, gq_die, gq_restart
theorem gq_logOkay (r : Req) : Pres Q (logOkay r) := by
  unfold logOkay
  pres gpo using gq_termForLog
theorem gq_handleAppendEntries (r : Req) : Pres Q (handleAppendEntries r) := by
  unfold handleAppendEntries
  pres gpo using gq_hearLeader, gq_logOkay, gq_storeEntries, gq_mod, gq_commit
  all_goals exact .of rfl rfl rfl rfl rfl rfl rfl
theorem gq_handleVoteReq (r : Req) : Pres Q (handleVoteReq r) := by
  unfold handleVoteReq
  pres gpo using gq_mod, gq_saveState
  all_goals exact .of rfl rfl rfl rfl rfl rfl rfl
theorem gq_handlePrevoteReq (r : Req) : Pres Q (handlePrevoteReq r) := by
  unfold handlePrevoteReq
  pres gpo using gq_mod
theorem gq_isLeader : Pres Q isLeader := by
  unfold isLeader
  pres gpo using gq_mod
  all_goals exact .of rfl rfl rfl rfl rfl rfl rfl
theorem gq_appendClient : ∀ (es : List Entry), Pres Q (appendClient es)
  | [] => pres_pure gpo _
  | e :: es => by
    have ih := gq_appendClient es
    unfold appendClient
    pres gpo using gq_logAppend, gq_emit, ih
    all_goals trivial
theorem gq_handleCliReq (r : Req) : Pres Q (handleCliReq r) := by
  unfold handleCliReq
  pres gpo using gq_isLeader, gq_appendClient, gq_requestAppendAll
theorem gq_addPeer (hx : x.reconfigures = true) (c : SrvCfg) (s : Srv) (hc : c.id ≠ s.id) : Q s (addPeer c s).2 := by
  unfold addPeer
  rw [bind_modify]
  have h1 : Q s (if (s.findPeer c.id).isSome then s else
      { s with peers := s.peers ++ [{ cfg := c, nextIdx := s.log.next, hbInterval := s.params.hbInterval }] }) := by
    split
    · exact gpo.refl s
    · rename_i h
      exact Prims.addPeer hx rfl (by rwa [Option.not_isSome_iff_eq_none] at h) hc
  refine gpo.trans h1 ?_
  have h2 : Pres Q (do
      let s ← get
      if s.role = .leader then do
        enableHb (.member c.id)
        match s.srvToJoin with
        | some j =>
          if j.id = c.id then do
            modPeer (.member c.id) fun p => { p with nextIdx := j.nextIdx }
            modify fun s => { s with srvToJoin := none }
          else pure ()
        | none => pure ()
      else pure () : R Unit) := by
    pres gpo using gq_mod, gq_enableHb, gq_modPeer
    all_goals first | exact ⟨rfl, rfl⟩ | exact .of rfl rfl rfl rfl rfl rfl rfl
  exact h2 _

omit hprims in
theorem addPeer_id (c : SrvCfg) (s : Srv) : (addPeer c s).2.id = s.id := by
  have h : Pres (fun s s' : Srv => s'.id = s.id) (addPeer c) := by
    have po : PO fun s s' : Srv => s'.id = s.id := ⟨fun _ => rfl, fun h1 h2 => h2.trans h1⟩
    unfold addPeer enableHb modPeer
    pres po using pres_modify
    all_goals first | rfl | (intro s; split <;> rfl)
  exact h s

theorem gq_addPeers (hx : x.reconfigures = true) : ∀ (cs : List SrvCfg) (s : Srv), (∀ c ∈ cs, c.id ≠ s.id) →
    Q s (forEach addPeer cs s).2
  | [], s, _ => gpo.refl s
  | c :: cs, s, h => by
    have h1 := gq_addPeer (Q := Q) hx c s (h c (by simp))
    have h2 := addPeer_id c s
    show Q s ((addPeer c >>= fun _ => forEach addPeer cs) s).2
    rcases hr : addPeer c s with ⟨e | u, s1⟩
    · rw [run_bind_err hr]; rw [hr] at h1; exact h1
    · rw [run_bind_ok hr]
      rw [hr] at h1 h2
      exact gpo.trans h1 (gq_addPeers hx cs s1 fun c hc => by
        have : s1.id = s.id := h2
        rw [this]; exact h c (List.mem_cons_of_mem _ hc))

theorem gq_removePeer (hx : x.reconfigures = true) (c : Config) (i : Int) : Pres Q (removePeer c i) := by
  unfold removePeer
  refine pres_getBind fun s => ?_
  split
  · exact pres_bind gpo (gq_emit (by trivial)) (fun _ => gq_die _) s
  · exact Prims.filter hx
theorem gq_reconfigure (hx : x.reconfigures = true) (c : Config) : Pres Q (reconfigure c) := by
  unfold reconfigure
  refine pres_getBind fun s => ?_
  have h1 := gq_addPeers (Q := Q) hx (c.servers.filter fun x => (s.findPeer x.id).isNone && x.id != s.id) s (by
    intro c hc
    have := (List.mem_filter.1 hc).2
    simp at this
    exact this.2)
  have h2 : Pres Q (do
      forEach (removePeer c) (((s.peers.map Peer.id).filter fun i => !c.has i) ++ if c.has s.id then [] else [s.id])
      modify fun s => { s with config := c } : R Unit) := by
    pres gpo using (gq_removePeer hx), gq_mod
    all_goals exact .of rfl rfl rfl rfl rfl rfl rfl
  rcases hr : forEach addPeer (c.servers.filter fun x => (s.findPeer x.id).isNone && x.id != s.id) s with ⟨e | u, s1⟩
  · rw [run_bind_err hr]; rw [hr] at h1; exact h1
  · rw [run_bind_ok hr]; rw [hr] at h1; exact gpo.trans h1 (h2 s1)
theorem gq_handleJoin (hj : x.isJoin = true) (hx : x.reconfigures = true) (r : Req) : Pres Q (handleJoin r) := by
  unfold handleJoin
  refine pres_getBind fun s => ?_
  show At Q s _
  split
  · rename_i c _
    unfold At
    split
    · exact gpo.refl s
    · rw [bind_modify, bind_modify, bind_modify]
      have h1 : Q s { s with
          catchingUp := true, role := .follower, leader := r.src, smCommit := 0, quickCommit := 0, vote := -1 } :=
        Prims.calm (.of rfl rfl rfl rfl rfl rfl rfl)
      have h3 := Prims.join (Q := Q) (s := { s with
          catchingUp := true, role := .follower, leader := r.src, smCommit := 0, quickCommit := 0, vote := -1 })
          (t := r.term) hj
      refine gpo.trans h1 (gpo.trans h3 ?_)
      have h2 : Pres Q (do
          saveState
          reconfigure c
          let s' ← get
          pure {
            type := .joinResp, term := s.term, src := s.id, dst := r.src, nextIdx := s'.log.next, accepted := true } :
          R Resp) := by
        pres gpo using gq_saveState, (gq_reconfigure hx)
      exact h2 _
  · exact gpo.refl s
theorem gq_installSnapshot (hx : x.reconfigures = true) (q : Snap) : Pres Q (installSnapshot q) := by
  unfold installSnapshot
  pres gpo using gq_die, gq_logCompact, gq_stop, gq_emit, gq_mod, (gq_reconfigure hx), gq_saveState, gq_restart
  all_goals first | trivial | exact .of rfl rfl rfl rfl rfl rfl rfl
theorem gq_handleSnapshotSync (hx : x.reconfigures = true) (q : SnpSync) : Pres Q (handleSnapshotSync q) := by
  unfold handleSnapshotSync
  pres gpo using gq_emit, gq_die, (gq_installSnapshot hx)
  all_goals trivial
theorem gq_hearSnapshotLeader (r : Req) : Pres Q (hearSnapshotLeader r) := by
  unfold hearSnapshotLeader
  pres gpo using gq_becomeFollower, gq_die, gq_restart
theorem gq_handleInstallSnapshot (hx : x.reconfigures = true) (r : Req) : Pres Q (handleInstallSnapshot r) := by
  unfold handleInstallSnapshot
  pres gpo using gq_hearSnapshotLeader, (gq_handleSnapshotSync hx)
theorem gq_handleRmSrv (r : Req) : Pres Q (handleRmSrv r) := by
  unfold handleRmSrv
  pres gpo using gq_emit
  all_goals trivial
theorem gq_inviteSrv : Pres Q inviteSrv := by
  unfold inviteSrv
  pres gpo using gq_getPeer, gq_emit
  all_goals trivial
theorem gq_handleAddSrv (r : Req) : Pres Q (handleAddSrv r) := by
  unfold handleAddSrv
  pres gpo using gq_mod, gq_inviteSrv
  all_goals exact .of rfl rfl rfl rfl rfl rfl rfl
theorem gq_handleLogSync (r : Req) : Pres Q (handleLogSync r) := by
  unfold handleLogSync
  pres gpo using gq_logApplyPack, gq_commit
  all_goals first | trivial | exact .of rfl rfl rfl rfl rfl rfl rfl
theorem gq_handleLeave (r : Req) : Pres Q (handleLeave r) := by
  unfold handleLeave
  pres gpo using gq_mod
  all_goals exact .of rfl rfl rfl rfl rfl rfl rfl
theorem gq_hearTerm (r : Req) : Pres Q (hearTerm r) := by
  unfold hearTerm
  pres gpo using gq_updateTerm, gq_mod
  all_goals exact .of rfl rfl rfl rfl rfl rfl rfl

/-! ## Responses -/

theorem gq_acceptedResp (ty : MsgType) (r : Resp) (hx : x = .peerResp ty r) (ht : r.type = .appendResp)
    (ha : r.accepted = true) : Pres Q (acceptedResp r) := by
  unfold acceptedResp
  refine pres_bind gpo (fun s => Prims.acked hx ht ha) fun _ => ?_
  pres gpo using gq_modPeer, gq_commit, gq_getPeer
  exact ⟨rfl, rfl⟩
theorem gq_refusedResp (r : Resp) : Pres Q (refusedResp r) := by
  unfold refusedResp
  pres gpo using gq_modPeer
  all_goals exact ⟨rfl, rfl⟩
theorem gq_handleAppendResp (ty : MsgType) (r : Resp) (hx : x = .peerResp ty r) (ht : r.type = .appendResp) :
    Pres Q (handleAppendResp r) := by
  unfold handleAppendResp
  by_cases h : r.accepted = true
  · have ha := gq_acceptedResp (Q := Q) ty r hx ht h
    pres gpo using gq_refusedResp, gq_requestAppendTo
  · simp only [if_neg h]
    pres gpo using gq_refusedResp, gq_requestAppendTo
theorem gq_acceptedSnpResp (ty : MsgType) (r : Resp) (hx : x = .peerResp ty r) (ht : r.type = .snpResp)
    (ha : r.accepted = true) : Pres Q (acceptedSnpResp r) := by
  unfold acceptedSnpResp
  intro s
  rcases hp : s.peer (.member r.src) with _ | p
  · rw [run_bind_err (getPeer_none hp)]; exact gpo.refl s
  rw [run_bind_ok (getPeer_some hp)]
  show At Q s _
  split
  · exact gpo.refl s
  · rename_i snp off hs
    unfold At
    split
    · rename_i hz
      rw [bind_modPeer]
      exact Prims.snapped hx ht ha hp hs hz
    · have h1 : Pres Q (modPeer (.member r.src) fun p => { p with snpCtx := some (snp, r.nextIdx) }) :=
        gq_modPeer _ _ fun p => ⟨rfl, rfl⟩
      exact pres_bind gpo h1 (fun _ => pres_pure gpo _) s
theorem gq_handleSnpResp (ty : MsgType) (r : Resp) (hx : x = .peerResp ty r) (ht : r.type = .snpResp) :
    Pres Q (handleSnpResp r) := by
  unfold handleSnpResp
  by_cases h : r.accepted = true
  · have ha := gq_acceptedSnpResp (Q := Q) ty r hx ht h
    pres gpo using gq_requestAppendTo
  · simp only [if_neg h]
    pres gpo using gq_requestAppendTo
theorem gq_handleVotingResp (ty : MsgType) (r : Resp) (hx : x = .peerResp ty r) (ht : r.type = .voteResp)
    (s : Srv) (hp : (s.findPeer r.src).isSome = true) : Q s (handleVotingResp r s).2 := by
  unfold handleVotingResp
  rw [bind_get]
  by_cases hc : r.term ≠ s.term ∨ s.electionCompleted = true ∨ r.src ∈ s.voted
  · rw [if_pos hc]; exact gpo.refl s
  rw [if_neg hc, bind_modify, bind_modify, bind_modify, bind_get]
  have hc1 : r.term = s.term := by
    by_cases h : r.term = s.term
    · exact h
    · exact absurd (.inl h) hc
  have hc2 : s.electionCompleted = false := by
    cases h : s.electionCompleted
    · rfl
    · exact absurd (.inr (.inl h)) hc
  have hc3 : r.src ∉ s.voted := fun h => hc (.inr (.inr h))
  have e1 := Prims.count (Q := Q) (s := s) (r := r)
    (b := if s.peers.length + 1 ≤ (r.src :: s.voted).length then true else s.electionCompleted) hx ht hc1 hc2 hc3 hp
  refine gpo.trans e1 ?_
  generalize { s with
    voted := r.src :: s.voted, votesGranted := if r.accepted then s.votesGranted + 1 else s.votesGranted,
    electionCompleted := if s.peers.length + 1 ≤ (r.src :: s.voted).length then true else s.electionCompleted } = s1
  have hr : x.reconfigures = false := by rw [hx]; rfl
  split
  · rename_i h
    rw [bind_modify]
    exact gpo.trans (Prims.complete (s := s1)) (gq_becomeLeader hr { s1 with electionCompleted := true } h)
  · exact gpo.refl s1
theorem gq_dispatchResp (ty : MsgType) (r : Resp) (hx : x = .peerResp ty r) (s : Srv)
    (hp : (s.findPeer r.src).isSome = true) : Q s (dispatchResp r s).2 := by
  unfold dispatchResp
  show At Q s _
  split
  · exact gq_handleVotingResp ty r hx ‹_› s hp
  · exact gq_handleAppendResp ty r hx ‹_› s
  · exact gq_handleSnpResp ty r hx ‹_› s
  · exact gq_die _ s
omit hprims in
theorem findPeer_setPeer (s : Srv) (i j : Int) (f : Peer → Peer) (hf : ∀ p, (f p).id = p.id) :
    ((s.setPeer (.member i) f).findPeer j).isSome = (s.findPeer j).isSome := by
  show ((s.peers.map fun p => if p.id == i then f p else p).find? (·.id == j)).isSome = _
  unfold Srv.findPeer
  rw [List.find?_map, Option.isSome_map]
  congr 2
  funext p
  show ((if p.id == i then f p else p).id == j) = (p.id == j)
  split
  · rw [hf p]
  · rfl
theorem gq_handlePeerResp (ty : MsgType) (r : Resp) (hx : x = .peerResp ty r) : Pres Q (handlePeerResp r) := by
  unfold handlePeerResp
  refine pres_getBind fun s => ?_
  by_cases hp : (s.findPeer r.src).isNone = true
  · rw [if_pos hp]; exact gpo.refl s
  rw [if_neg hp, bind_modPeer]
  have h1 : Q s (s.setPeer (.member r.src) fun p => { p with lastResp := s.now }) :=
    Prims.calm (calm_setPeer _ _ _ fun p => ⟨rfl, rfl⟩)
  refine gpo.trans h1 ?_
  have hp1 : ((s.setPeer (.member r.src) fun p => { p with lastResp := s.now }).findPeer r.src).isSome = true := by
    rw [findPeer_setPeer s r.src r.src (fun p => { p with lastResp := s.now }) fun p => rfl]
    cases h : s.findPeer r.src
    · rw [h] at hp; exact absurd rfl hp
    · rfl
  generalize s.setPeer (.member r.src) (fun p => { p with lastResp := s.now }) = s1 at hp1 ⊢
  by_cases hn : s1.term < r.term
  · have h2 := gq_updateTerm (Q := Q) r.term s1
    rw [run_bind_ok (run_updateTerm_gt hn)]
    rw [run_updateTerm_gt hn] at h2
    exact h2
  · rw [run_bind_ok (run_updateTerm_le (by omega))]
    exact gq_dispatchResp ty r hx s1 hp1
theorem gq_handlePrevoteResp (hx : x.reconfigures = false) (r : Resp) : Pres Q (handlePrevoteResp r) := by
  unfold handlePrevoteResp
  pres gpo using gq_mod, (gq_becomeCandidate hx), gq_restart
  all_goals exact .of rfl rfl rfl rfl rfl rfl rfl
theorem gq_addToConfig : Pres Q addToConfig := by
  unfold addToConfig
  pres gpo using gq_logAppend, gq_mod, gq_requestAppendAll
  all_goals exact .of rfl rfl rfl rfl rfl rfl rfl
theorem gq_sendSync (r : PeerRef) (i t c : Nat) :
    Pres Q (createSyncSnapshotReq r i t c >>= fun q => emit (.send q)) := by
  pres gpo using gq_createSync, gq_emit
  trivial
theorem gq_syncLogToNewSrv (i : Nat) : Pres Q (syncLogToNewSrv i) := by
  unfold syncLogToNewSrv
  pres gpo using gq_addToConfig, gq_sendSync, gq_getPeer, gq_emit
  all_goals trivial
theorem gq_rmSrvFromCluster (i : Int) : Pres Q (rmSrvFromCluster i) := by
  unfold rmSrvFromCluster
  pres gpo using gq_logAppend, gq_mod, gq_requestAppendAll
  all_goals exact .of rfl rfl rfl rfl rfl rfl rfl
theorem gq_modJoin (f : Peer → Peer) : Pres Q (modPeer .joining f) := fun _ =>
  Prims.calm (.of rfl rfl rfl rfl rfl rfl rfl)
theorem gq_handleExtSnpResp (r : Resp) : Pres Q (handleExtSnpResp r) := by
  unfold handleExtSnpResp
  pres gpo using gq_die, gq_modJoin, gq_getPeer, gq_syncLogToNewSrv
theorem gq_handleExtResp (hx : x.reconfigures = false) (r : Resp) : Pres Q (handleExtResp r) := by
  unfold handleExtResp
  pres gpo using gq_die, gq_modJoin, gq_syncLogToNewSrv, gq_rmSrvFromCluster, gq_handleExtSnpResp, (gq_handlePrevoteResp hx)
theorem gq_forceRemove (hx : x.reconfigures = true) (i : Int) : Pres Q (forceRemove i) := by
  unfold forceRemove
  refine pres_bind gpo (fun s => ?_) fun _ => gq_rmSrvFromCluster i
  show Q s { s with peers := if s.peers.length = 1 then s.peers.filter fun p => p.id != i else s.peers }
  split
  · exact Prims.filter hx
  · exact gpo.refl s
theorem gq_handleExtErr (hx : x.reconfigures = true) (r : Req) : Pres Q (handleExtErr r) := by
  unfold handleExtErr
  pres gpo using gq_mod, (gq_forceRemove hx), gq_modPeer
  all_goals first | exact ⟨rfl, rfl⟩ | exact .of rfl rfl rfl rfl rfl rfl rfl
theorem gq_rpcResult (p : PeerRef) (ty : MsgType) (ok : Bool) : Pres Q (rpcResult p ty ok) := by
  unfold rpcResult
  pres gpo using gq_modPeer
  all_goals exact ⟨rfl, rfl⟩
theorem gq_retryReq (r : Req) : Pres Q (retryReq r) := by
  unfold retryReq
  pres gpo using gq_emit
  all_goals trivial

/-! ## Commit thread and application -/

theorem gq_commitConf (hx : x.reconfigures = true) (c : Config) : Pres Q (commitConf c) := by
  unfold commitConf
  pres gpo using gq_emit, gq_mod, (gq_reconfigure hx)
  all_goals first | trivial | exact .of rfl rfl rfl rfl rfl rfl rfl
theorem gq_findConf (i : Nat) : ∀ (n : Nat) (c : Config), Pres Q (findConf i n c)
  | 0, _ => pres_throw gpo _
  | n + 1, c => by
    have ih := gq_findConf i n
    unfold findConf
    pres gpo using gq_entryAt, ih
theorem gq_confForSnap (i : Nat) : Pres Q (confForSnap i) := by
  unfold confForSnap
  pres gpo using gq_findConf, gq_die
theorem gq_startSnapshot (i : Nat) : Pres Q (startSnapshot i) := by
  unfold startSnapshot
  pres gpo using gq_confForSnap, gq_termAt, gq_emit
  all_goals trivial
theorem gq_snapshotAndCompact (i : Nat) : Pres Q (snapshotAndCompact i) := by
  unfold snapshotAndCompact
  pres gpo using gq_mod, gq_startSnapshot
  all_goals exact .of rfl rfl rfl rfl rfl rfl rfl
theorem gq_keepSnap (q : Snap) : Pres Q (keepSnap q) := by
  unfold keepSnap
  pres gpo using gq_mod, gq_emit
  all_goals first | trivial | exact .of rfl rfl rfl rfl rfl rfl rfl
theorem gq_onSnapshotCompleted (q : Snap) (ok : Bool) : Pres Q (onSnapshotCompleted q ok) := by
  unfold onSnapshotCompleted
  pres gpo using gq_mod, gq_logCompact
  all_goals exact .of rfl rfl rfl rfl rfl rfl rfl
theorem gq_applyEntry (hx : x.reconfigures = true) (i : Nat) (e : Entry) : Pres Q (applyEntry i e) := by
  unfold applyEntry
  pres gpo using gq_emit, (gq_commitConf hx)
  all_goals trivial
theorem gq_applyOne (hx : x.reconfigures = true) : Pres Q applyOne := by
  unfold applyOne
  pres gpo using gq_mod, gq_entryToApply, (gq_applyEntry hx), gq_snapshotAndCompact
  all_goals exact .of rfl rfl rfl rfl rfl rfl rfl
theorem gq_replicateLog (d : Nat) : Pres Q (replicateLog d) := by
  unfold replicateLog
  pres gpo using gq_isLeader, gq_logAppend, gq_requestAppendAll


/-! ## Whole inputs -/

theorem gq_dispatch (r : Req) (hx : x = .req r) : Pres Q (dispatch r) := by
  unfold dispatch handleExtended
  pres gpo using gq_handleAppendEntries, gq_handleVoteReq, gq_handleCliReq, gq_handleAddSrv, gq_handleRmSrv,
    gq_handleLogSync, gq_handleLeave, gq_handlePrevoteReq, gq_die
  · refine gq_handleJoin ?_ ?_ r
    · rw [hx]
      show (r.type == .joinReq) = true
      rw [‹r.type = .joinReq›]
      rfl
    · rw [hx]
      show (r.type == .snpReq || r.type == .joinReq) = true
      rw [‹r.type = .joinReq›]
      rfl
  · refine gq_handleInstallSnapshot ?_ r
    rw [hx]
    show (r.type == .snpReq || r.type == .joinReq) = true
    rw [‹r.type = .snpReq›]
    rfl

/-- Every input is covered. -/
theorem gq_run : Pres Q x.run := by
  cases hx : x with
  | req r =>
    show Pres _ (processReq r >>= fun resp => emit (.reply resp))
    unfold processReq
    exact pres_bind gpo (pres_bind gpo (gq_hearTerm r) fun _ => gq_dispatch r hx) fun q => gq_emit (by trivial)
  | peerResp ty r => exact pres_bind gpo (gq_rpcResult _ _ _) fun _ => gq_handlePeerResp ty r hx
  | extResp p ty r => exact pres_bind gpo (gq_rpcResult _ _ _) fun _ => gq_handleExtResp (by rw [hx]; rfl) r
  | peerErr r => exact gq_rpcResult _ _ _
  | extErr p r => exact pres_bind gpo (gq_rpcResult _ _ _) fun _ => gq_handleExtErr (by rw [hx]; rfl) r
  | retry r => exact gq_retryReq r
  | electionTimeout => exact gq_handleElectionTimeout (by rw [hx]; rfl)
  | hbTimeout id => exact gq_handleHbTimeout _
  | apply => exact gq_applyOne (by rw [hx]; rfl)
  | snapDone q ok =>
    exact pres_ite (pres_bind gpo (gq_keepSnap q) fun _ => gq_onSnapshotCompleted q true) (gq_onSnapshotCompleted q false)
  | replicate d => exact pres_bind gpo (gq_replicateLog d) fun _ => pres_pure gpo _
  | tick n => exact gq_mod fun s => .of rfl rfl rfl rfl rfl rfl rfl

end Cs.Raft
