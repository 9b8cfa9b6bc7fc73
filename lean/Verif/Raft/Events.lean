import Verif.Raft.PropsBusy

/-!
# What the listener is told about the role of the server

A walk over the handlers. A server that leads has told its listener so, and nothing else since; and, as long as the answers to its own
pre-vote and the invitations to join are excepted, a server that has told its listener that it leads does lead.
-/

set_option linter.unusedSectionVars false
set_option linter.unusedVariables false

namespace Cs.Raft
open Cs

/-- What an effect says about the role: leads, does not lead. -/
def Eff.says : Eff → Option Bool
  | .event .becomeLeader => some true
  | .event .becomeFollower => some false
  | _ => none

/-- What the listener thinks after some more effects. -/
def hears (b : Bool) (es : List Eff) : Bool := es.foldl (fun b e => e.says.getD b) b

theorem hears_append (b : Bool) (es fs : List Eff) : hears b (es ++ fs) = hears (hears b es) fs := List.foldl_append ..

theorem hears_mono {es : List Eff} : ∀ {b c : Bool}, (b = true → c = true) → hears b es = true → hears c es = true := by
  induction es with
  | nil => exact fun h => h
  | cons e es ih =>
    intro b c h
    refine ih (b := e.says.getD b) (c := e.says.getD c) ?_
    rcases e.says with _ | v
    · exact h
    · exact fun h => h

/-- No leader has a pre-vote open. -/
def Srv.Settled (s : Srv) : Prop := s.role = .leader → s.prevote = none

/-- Pre-votes are disabled. -/
def Srv.Direct (s : Srv) : Prop := s.params.prevote = false ∧ s.prevote = none

/-- The relation of the walk; see above. The second half is claimed if `b`. -/
def RoleEv (b : Bool) (s s' : Srv) : Prop :=
  (s.Direct → s'.Direct) ∧
  ∃ es, s'.trace = s.trace ++ es ∧ (s'.role = .leader → hears (decide (s.role = .leader)) es = true) ∧
    (b = true → s.Settled → s'.Settled ∧ (hears (decide (s.role = .leader)) es = true → s'.role = .leader))

variable {b : Bool}

theorem evPo : PO (RoleEv b) where
  refl s := ⟨fun h => h, [], (List.append_nil _).symm, fun h => decide_eq_true h, fun _ h => ⟨h, fun h => of_decide_eq_true h⟩⟩
  trans {x y z} h1 h2 := by
    obtain ⟨d1, es, h1, f1, g1⟩ := h1
    obtain ⟨d2, fs, h2, f2, g2⟩ := h2
    refine ⟨fun h => d2 (d1 h), es ++ fs, by rw [h2, h1, List.append_assoc], fun h => ?_, fun hb hs => ?_⟩
    · rw [hears_append]
      exact hears_mono (fun hy => f1 (of_decide_eq_true hy)) (f2 h)
    · obtain ⟨s1, g1⟩ := g1 hb hs
      obtain ⟨s2, g2⟩ := g2 hb s1
      refine ⟨s2, fun h => g2 ?_⟩
      rw [hears_append] at h
      exact hears_mono (fun hy => decide_eq_true (g1 hy)) h

theorem RoleEv.calm {s s' : Srv} (h1 : s'.role = s.role) (h2 : s'.trace = s.trace) (h3 : s'.prevote = s.prevote)
    (h4 : s'.params = s.params) : RoleEv b s s' :=
  ⟨fun h => ⟨h4 ▸ h.1, h3.trans h.2⟩, [], by rw [h2, List.append_nil], fun h => decide_eq_true (h1 ▸ h), fun _ hs =>
    ⟨fun h => h3.trans (hs (h1 ▸ h)), fun h => h1.trans (of_decide_eq_true h)⟩⟩

/-- No leader before, none afterwards, and nothing is told. -/
theorem RoleEv.low {s s' : Srv} (h0 : s.role ≠ .leader) (h1 : s'.role ≠ .leader) {es : List Eff} (h2 : s'.trace = s.trace ++ es)
    (h3 : ∀ e ∈ es, e.says = none) (h4 : s.Direct → s'.Direct) : RoleEv b s s' := by
  refine ⟨h4, es, h2, fun h => absurd h h1, fun _ _ => ⟨fun h => absurd h h1, fun h => ?_⟩⟩
  rw [decide_eq_false h0] at h
  exfalso
  clear h2
  induction es with
  | nil => cases h
  | cons e es ih =>
    refine ih (fun f hf => h3 f (List.mem_cons_of_mem _ hf)) ?_
    have : e.says = none := h3 e (List.mem_cons_self ..)
    unfold hears at h ⊢
    rw [List.foldl_cons, this] at h
    exact h

theorem ev_mod {f : Srv → Srv} (h : ∀ s, RoleEv b s (f s)) : Pres (RoleEv b) (modify f : R PUnit) := fun s => h s

theorem ev_emit (e : Eff) (he : e.says = none) : Pres (RoleEv b) (emit e) := fun s => by
  have h0 : hears (decide (s.role = .leader)) [e] = decide (s.role = .leader) := by
    show e.says.getD _ = _
    rw [he]; rfl
  refine ⟨fun h => h, [e], rfl, fun h => ?_, fun _ hs => ⟨hs, fun h => ?_⟩⟩
  · rw [h0]; exact decide_eq_true h
  · rw [h0] at h; exact of_decide_eq_true h

theorem ev_modPeer (r : PeerRef) (f : Peer → Peer) : Pres (RoleEv b) (modPeer r f) := fun s => by
  cases r with
  | member id => exact RoleEv.calm rfl rfl rfl rfl
  | joining => exact RoleEv.calm rfl rfl rfl rfl

theorem ev_stepDown (s : Srv) : RoleEv b s s.stepDown :=
  ⟨fun h => ⟨h.1, rfl⟩, [.event .becomeFollower], rfl, fun h => (by cases h), fun _ _ => ⟨fun h => (by cases h), fun h => (by cases h)⟩⟩

/-- The primitive updates. -/
macro "evs" : tactic => `(tactic| first | rfl | exact RoleEv.calm rfl rfl rfl rfl | (split <;> exact RoleEv.calm rfl rfl rfl rfl))

theorem ev_die {α : Type} (c : Int) : Pres (RoleEv b) (die c : R α) := by
  unfold die
  pres evPo using ev_emit
  all_goals evs
theorem ev_saveState : Pres (RoleEv b) saveState := fun s => ev_emit (.saveState s.term s.vote) rfl s
theorem ev_getPeer (r : PeerRef) : Pres (RoleEv b) (getPeer r) := by
  unfold getPeer
  pres evPo using ev_die
  all_goals evs
theorem ev_peerIds : Pres (RoleEv b) peerIds := fun s => evPo.refl s
theorem ev_termAt (i : Nat) : Pres (RoleEv b) (termAt i) := by
  unfold termAt
  pres evPo using ev_die
  all_goals evs
theorem ev_termForLog (i : Nat) : Pres (RoleEv b) (termForLog i) := by
  unfold termForLog
  pres evPo using ev_die, ev_termAt
  all_goals evs
theorem ev_chooseSnap (r : PeerRef) (i : Nat) : Pres (RoleEv b) (chooseSnap r i) := by
  unfold chooseSnap
  pres evPo using ev_die, ev_getPeer, ev_modPeer
theorem ev_createSyncReq (r : PeerRef) (i t c : Nat) : Pres (RoleEv b) (createSyncSnapshotReq r i t c) := by
  unfold createSyncSnapshotReq
  pres evPo using ev_die, ev_getPeer, ev_chooseSnap
theorem ev_createSync (i t c : Nat) : Pres (RoleEv b) (createSyncSnapshotReq .joining i t c >>= fun q => emit (.send q)) :=
  pres_bind evPo (ev_createSyncReq _ i t c) fun _ => ev_emit _ rfl
theorem ev_entriesFrom (i : Nat) : Pres (RoleEv b) (entriesFrom i) := by
  unfold entriesFrom
  pres evPo using ev_die
theorem ev_appendReqFrom (r : PeerRef) (i : Nat) : Pres (RoleEv b) (appendReqFrom r i) := by
  unfold appendReqFrom
  pres evPo using ev_termForLog, ev_entriesFrom, ev_getPeer
theorem ev_createAppendReq (r : PeerRef) : Pres (RoleEv b) (createAppendReq r) := by
  unfold createAppendReq
  pres evPo using ev_die, ev_getPeer, ev_modPeer, ev_createSyncReq, ev_appendReqFrom
theorem ev_requestAppend (r : PeerRef) : Pres (RoleEv b) (requestAppend r) := by
  unfold requestAppend
  pres evPo using ev_getPeer, ev_modPeer, ev_createAppendReq, ev_emit
  all_goals evs
theorem ev_commitNotify (id : Int) : Pres (RoleEv b) (commitNotify id) := by
  unfold commitNotify
  pres evPo using ev_requestAppend, ev_modPeer
  all_goals evs
theorem ev_requestAppendTo (id : Int) : Pres (RoleEv b) (requestAppendTo id) := by
  unfold requestAppendTo
  pres evPo using ev_requestAppend
  all_goals evs
theorem ev_askVote (ty : MsgType) (id : Int) : Pres (RoleEv b) (askVote ty id) := by
  unfold askVote
  pres evPo using ev_termForLog, ev_emit
  all_goals evs
theorem ev_entryAt (i : Nat) : Pres (RoleEv b) (entryAt i) := by
  unfold entryAt
  pres evPo using ev_die
  all_goals evs
theorem ev_entryToApply (i : Nat) : Pres (RoleEv b) (entryToApply i) := by
  unfold entryToApply
  pres evPo using ev_die
  all_goals evs
theorem ev_restart : Pres (RoleEv b) restartElectionTimer := by
  unfold restartElectionTimer
  pres evPo using ev_mod
  all_goals evs
theorem ev_stop : Pres (RoleEv b) stopElectionTimer := by
  unfold stopElectionTimer
  pres evPo using ev_mod
  all_goals evs
theorem ev_enableHb (r : PeerRef) : Pres (RoleEv b) (enableHb r) := by
  unfold enableHb
  pres evPo using ev_modPeer
theorem ev_leaderPeer (id : Int) : Pres (RoleEv b) (leaderPeer id) := by
  unfold leaderPeer
  pres evPo using ev_modPeer, ev_enableHb
theorem ev_commit (n : Nat) : Pres (RoleEv b) (commit n) := by
  unfold commit
  pres evPo using ev_mod, ev_emit, ev_peerIds, ev_commitNotify
  all_goals evs
theorem ev_requestAppendAll : Pres (RoleEv b) requestAppendAll := by
  unfold requestAppendAll
  pres evPo using ev_commit, ev_peerIds, ev_requestAppendTo
  all_goals evs
theorem ev_logAppend (e : Entry) : Pres (RoleEv b) (logAppend e) := by
  unfold logAppend
  pres evPo using ev_mod, ev_emit
  all_goals evs
theorem ev_logWriteAt (i : Nat) (e : Entry) : Pres (RoleEv b) (logWriteAt i e) := by
  unfold logWriteAt
  pres evPo using ev_mod, ev_emit
  all_goals evs
theorem ev_logApplyPack (i : Nat) (es : List Entry) : Pres (RoleEv b) (logApplyPack i es) := by
  unfold logApplyPack
  pres evPo using ev_mod, ev_emit
  all_goals evs
theorem ev_logCompact (i : Nat) : Pres (RoleEv b) (logCompact i) := by
  unfold logCompact
  pres evPo using ev_mod, ev_emit
  all_goals evs
theorem ev_initialConf : Pres (RoleEv b) initialConf := by
  unfold initialConf
  pres evPo using ev_mod, ev_logAppend
  all_goals evs
theorem ev_noJoin : Pres (RoleEv b) (modify fun s : Srv => { s with srvToJoin := none } : R PUnit) :=
  fun _ => RoleEv.calm rfl rfl rfl rfl
theorem ev_voteSelf : Pres (RoleEv b) voteSelf := by
  unfold voteSelf
  pres evPo using ev_mod, ev_saveState
  all_goals evs
theorem ev_rearm : Pres (RoleEv b) rearm := by
  unfold rearm
  pres evPo using ev_restart
  all_goals evs
theorem ev_leaveConfig : Pres (RoleEv b) leaveConfig := by
  unfold leaveConfig
  pres evPo using ev_mod, ev_emit
  all_goals evs
theorem ev_handleHbTimeout (r : PeerRef) : Pres (RoleEv b) (handleHbTimeout r) := by
  unfold handleHbTimeout
  pres evPo using ev_modPeer, ev_requestAppend
  all_goals evs

theorem ev_updateTerm (t : Nat) : Pres (RoleEv b) (updateTerm t) := by
  unfold updateTerm
  have hf : Pres (RoleEv b) becomeFollower := fun s => by
    rw [run_becomeFollower]
    exact ev_stepDown s
  pres evPo using ev_mod, ev_saveState, hf
  all_goals evs

/-! ## Requests -/

theorem ev_skipSame : ∀ (es : List Entry) (i : Nat), Pres (RoleEv b) (skipSame i es)
  | [], _ => pres_pure evPo _
  | e :: es, i => by
    have ih := ev_skipSame es
    unfold skipSame
    pres evPo using ev_termAt, ih
theorem ev_rollbackOld (i : Nat) : Pres (RoleEv b) (rollbackOld i) := by
  unfold rollbackOld
  pres evPo using ev_entryAt, ev_emit, ev_mod
  all_goals evs
theorem ev_noteNew (i : Nat) (e : Entry) : Pres (RoleEv b) (noteNew i e) := by
  unfold noteNew
  pres evPo using ev_emit, ev_mod
  all_goals evs
theorem ev_overwriteOld : ∀ (es : List Entry) (i : Nat), Pres (RoleEv b) (overwriteOld i es)
  | [], _ => pres_pure evPo _
  | e :: es, i => by
    have ih := ev_overwriteOld es
    unfold overwriteOld
    pres evPo using ev_rollbackOld, ev_logWriteAt, ev_noteNew, ih
theorem ev_appendNew : ∀ (es : List Entry), Pres (RoleEv b) (appendNew es)
  | [] => pres_pure evPo _
  | e :: es => by
    have ih := ev_appendNew es
    unfold appendNew
    pres evPo using ev_logAppend, ev_noteNew, ih
theorem ev_storeEntries (r : Req) : Pres (RoleEv b) (storeEntries r) := by
  unfold storeEntries
  pres evPo using ev_skipSame, ev_overwriteOld, ev_appendNew
  all_goals evs
theorem ev_hearLeader (r : Req) : Pres (RoleEv b) (hearLeader r) := by
  unfold hearLeader
  refine pres_getBind fun s => ?_
  show At (RoleEv b) s _
  split
  · split
    · next h =>
      show RoleEv b s (becomeFollower s).2
      rw [run_becomeFollower]
      exact ev_stepDown s
    · exact ev_die _ s
    · exact ev_restart s
  · exact evPo.refl s
theorem ev_logOkay (r : Req) : Pres (RoleEv b) (logOkay r) := by
  unfold logOkay
  pres evPo using ev_termForLog
  all_goals evs
theorem ev_handleAppendEntries (r : Req) : Pres (RoleEv b) (handleAppendEntries r) := by
  unfold handleAppendEntries
  pres evPo using ev_hearLeader, ev_logOkay, ev_storeEntries, ev_mod, ev_commit
  all_goals evs
theorem ev_handleVoteReq (r : Req) : Pres (RoleEv b) (handleVoteReq r) := by
  unfold handleVoteReq
  pres evPo using ev_mod, ev_saveState
  all_goals evs
theorem ev_handlePrevoteReq (r : Req) : Pres (RoleEv b) (handlePrevoteReq r) := by
  unfold handlePrevoteReq
  pres evPo using ev_mod
  all_goals evs
theorem ev_isLeader : Pres (RoleEv b) isLeader := by
  unfold isLeader
  refine pres_getBind fun s => ?_
  by_cases h : s.role = .leader ∧ 0 < s.peers.length ∧ s.params.electionUpper * 2 < s.elapsed
  · simp only [if_pos h]
    have h1 : RoleEv b s { s with elapsed := toI32 ((s.now : Int) - quorumResp s) } :=
      RoleEv.calm rfl rfl rfl rfl
    rw [bind_modify]
    generalize { s with elapsed := toI32 ((s.now : Int) - quorumResp s) } = s1 at h1 ⊢
    have h2 : Pres (RoleEv b) (do
        let s ← get
        if s.params.electionUpper * 2 < s.elapsed then pure false
        else pure (decide (s.role = .leader)) : R Bool) := by
      pres evPo using ev_emit
      all_goals evs
    exact evPo.trans h1 (h2 s1)
  · simp only [if_neg h]
    exact evPo.refl s
theorem ev_appendClient : ∀ (es : List Entry), Pres (RoleEv b) (appendClient es)
  | [] => pres_pure evPo _
  | e :: es => by
    have ih := ev_appendClient es
    unfold appendClient
    pres evPo using ev_logAppend, ev_emit, ih
    all_goals evs
theorem ev_handleCliReq (r : Req) : Pres (RoleEv b) (handleCliReq r) := by
  unfold handleCliReq
  pres evPo using ev_isLeader, ev_appendClient, ev_requestAppendAll
  all_goals evs
theorem ev_addPeer (c : SrvCfg) : Pres (RoleEv b) (addPeer c) := by
  unfold addPeer
  pres evPo using ev_noJoin, ev_mod, ev_enableHb, ev_modPeer
  all_goals evs
theorem ev_removePeer (c : Config) (i : Int) : Pres (RoleEv b) (removePeer c i) := by
  unfold removePeer
  pres evPo using ev_emit, ev_die, ev_mod
  all_goals evs
theorem ev_reconfigure (c : Config) : Pres (RoleEv b) (reconfigure c) := by
  unfold reconfigure
  pres evPo using ev_addPeer, ev_removePeer, ev_mod
  all_goals evs
theorem ev_installSnapshot (q : Snap) : Pres (RoleEv b) (installSnapshot q) := by
  unfold installSnapshot
  pres evPo using ev_die, ev_logCompact, ev_stop, ev_emit, ev_mod, ev_reconfigure, ev_saveState, ev_restart
  all_goals evs
theorem ev_handleSnapshotSync (q : SnpSync) : Pres (RoleEv b) (handleSnapshotSync q) := by
  unfold handleSnapshotSync
  pres evPo using ev_emit, ev_die, ev_installSnapshot
  all_goals evs
theorem ev_hearSnapshotLeader (r : Req) : Pres (RoleEv b) (hearSnapshotLeader r) := by
  unfold hearSnapshotLeader
  refine pres_getBind fun s => ?_
  show At (RoleEv b) s _
  split
  · split
    · next h =>
      show RoleEv b s (becomeFollower s).2
      rw [run_becomeFollower]
      exact ev_stepDown s
    · exact ev_die _ s
    · exact ev_restart s
  · exact evPo.refl s
theorem ev_handleInstallSnapshot (r : Req) : Pres (RoleEv b) (handleInstallSnapshot r) := by
  unfold handleInstallSnapshot
  pres evPo using ev_hearSnapshotLeader, ev_handleSnapshotSync
theorem ev_handleRmSrv (r : Req) : Pres (RoleEv b) (handleRmSrv r) := by
  unfold handleRmSrv
  pres evPo using ev_emit
  all_goals evs
theorem ev_inviteSrv : Pres (RoleEv b) inviteSrv := by
  unfold inviteSrv
  pres evPo using ev_getPeer, ev_emit
  all_goals evs
theorem ev_handleAddSrv (r : Req) : Pres (RoleEv b) (handleAddSrv r) := by
  unfold handleAddSrv
  have h0 : ∀ c : SrvCfg, Pres (RoleEv b) (modify fun s : Srv =>
      { s with srvToJoin := some { cfg := c, hbInterval := s.params.hbInterval } } : R PUnit) := by
    intro c s
    exact RoleEv.calm rfl rfl rfl rfl
  pres evPo using h0, ev_mod, ev_inviteSrv
  all_goals evs
theorem ev_handleLogSync (r : Req) : Pres (RoleEv b) (handleLogSync r) := by
  unfold handleLogSync
  pres evPo using ev_logApplyPack, ev_commit
  all_goals evs
theorem ev_handleLeave (r : Req) : Pres (RoleEv b) (handleLeave r) := by
  unfold handleLeave
  pres evPo using ev_mod
  all_goals evs
theorem ev_hearTerm (r : Req) : Pres (RoleEv b) (hearTerm r) := by
  unfold hearTerm
  pres evPo using ev_updateTerm, ev_mod
  all_goals evs

/-! ## Responses -/
theorem ev_acceptedResp (r : Resp) : Pres (RoleEv b) (acceptedResp r) := by
  unfold acceptedResp
  pres evPo using ev_modPeer, ev_commit, ev_getPeer
  all_goals evs
theorem ev_refusedResp (r : Resp) : Pres (RoleEv b) (refusedResp r) := by
  unfold refusedResp
  pres evPo using ev_modPeer
  all_goals evs
theorem ev_handleAppendResp (r : Resp) : Pres (RoleEv b) (handleAppendResp r) := by
  unfold handleAppendResp
  pres evPo using ev_acceptedResp, ev_refusedResp, ev_requestAppendTo
theorem ev_acceptedSnpResp (r : Resp) : Pres (RoleEv b) (acceptedSnpResp r) := by
  unfold acceptedSnpResp
  pres evPo using ev_modPeer, ev_getPeer
  all_goals evs
theorem ev_handleSnpResp (r : Resp) : Pres (RoleEv b) (handleSnpResp r) := by
  unfold handleSnpResp
  pres evPo using ev_acceptedSnpResp, ev_requestAppendTo
theorem ev_addToConfig : Pres (RoleEv b) addToConfig := by
  unfold addToConfig
  pres evPo using ev_logAppend, ev_mod, ev_requestAppendAll
  all_goals evs
theorem ev_syncLogToNewSrv (i : Nat) : Pres (RoleEv b) (syncLogToNewSrv i) := by
  unfold syncLogToNewSrv
  pres evPo using ev_addToConfig, ev_createSync, ev_getPeer, ev_emit
  all_goals evs
theorem ev_rmSrvFromCluster (i : Int) : Pres (RoleEv b) (rmSrvFromCluster i) := by
  unfold rmSrvFromCluster
  pres evPo using ev_logAppend, ev_mod, ev_requestAppendAll
  all_goals evs
theorem ev_handleExtSnpResp (r : Resp) : Pres (RoleEv b) (handleExtSnpResp r) := by
  unfold handleExtSnpResp
  pres evPo using ev_die, ev_modPeer, ev_getPeer, ev_syncLogToNewSrv
  all_goals evs
theorem ev_forceRemove (i : Int) : Pres (RoleEv b) (forceRemove i) := by
  unfold forceRemove
  refine pres_bind evPo (fun s => ?_) fun _ => ev_rmSrvFromCluster i
  show RoleEv b s { s with peers := if s.peers.length = 1 then s.peers.filter fun p => p.id != i else s.peers }
  split
  · exact RoleEv.calm rfl rfl rfl rfl
  · exact evPo.refl s
theorem ev_handleExtErr (r : Req) : Pres (RoleEv b) (handleExtErr r) := by
  unfold handleExtErr
  refine pres_getBind fun s => ?_
  show At (RoleEv b) s _
  split
  · split
    · exact evPo.refl s
    · split
      · exact ev_forceRemove _ s
      · exact ev_modPeer _ (slowDownHb s.params) s
  · split
    · exact evPo.refl s
    · split
      · exact RoleEv.calm rfl rfl rfl rfl
      · exact ev_modPeer _ (slowDownHb s.params) s
  · split
    · exact evPo.refl s
    · split
      · exact RoleEv.calm rfl rfl rfl rfl
      · exact ev_modPeer _ (slowDownHb s.params) s
  · exact evPo.refl s
theorem ev_retryReq (r : Req) : Pres (RoleEv b) (retryReq r) := by
  unfold retryReq
  pres evPo using ev_emit
  all_goals evs
theorem ev_rpcResult (p : PeerRef) (ty : MsgType) (ok : Bool) : Pres (RoleEv b) (rpcResult p ty ok) := by
  unfold rpcResult
  pres evPo using ev_modPeer

/-! ## Commit thread and application -/
theorem ev_commitConf (c : Config) : Pres (RoleEv b) (commitConf c) := by
  unfold commitConf
  pres evPo using ev_emit, ev_mod, ev_reconfigure
  all_goals evs
theorem ev_findConf (i : Nat) : ∀ (n : Nat) (c : Config), Pres (RoleEv b) (findConf i n c)
  | 0, _ => pres_throw evPo _
  | n + 1, c => by
    have ih := ev_findConf i n
    unfold findConf
    pres evPo using ev_entryAt, ih
theorem ev_confForSnap (i : Nat) : Pres (RoleEv b) (confForSnap i) := by
  unfold confForSnap
  pres evPo using ev_findConf, ev_die
  all_goals evs
theorem ev_keepSnap (q : Snap) : Pres (RoleEv b) (keepSnap q) := by
  unfold keepSnap
  pres evPo using ev_mod, ev_emit
  all_goals evs
theorem ev_startSnapshot (i : Nat) : Pres (RoleEv b) (startSnapshot i) := by
  unfold startSnapshot
  pres evPo using ev_confForSnap, ev_termAt, ev_emit, ev_mod, ev_keepSnap
  all_goals evs
theorem ev_snapshotAndCompact (i : Nat) : Pres (RoleEv b) (snapshotAndCompact i) := by
  unfold snapshotAndCompact
  pres evPo using ev_mod, ev_startSnapshot
  all_goals evs
theorem ev_onSnapshotCompleted (q : Snap) (ok : Bool) : Pres (RoleEv b) (onSnapshotCompleted q ok) := by
  unfold onSnapshotCompleted
  pres evPo using ev_mod, ev_logCompact
  all_goals evs
theorem ev_applyEntry (i : Nat) (e : Entry) : Pres (RoleEv b) (applyEntry i e) := by
  unfold applyEntry
  pres evPo using ev_emit, ev_commitConf
  all_goals evs
theorem ev_applyOne : Pres (RoleEv b) applyOne := by
  unfold applyOne
  pres evPo using ev_mod, ev_entryToApply, ev_applyEntry, ev_snapshotAndCompact
  all_goals evs
theorem ev_replicateLog (d : Nat) : Pres (RoleEv b) (replicateLog d) := by
  unfold replicateLog
  pres evPo using ev_isLeader, ev_logAppend, ev_requestAppendAll
  all_goals evs


/-! ## Elections -/

/-- Nothing is told, and role and pre-vote are kept. -/
def SaysNone (s s' : Srv) : Prop :=
  s'.params = s.params ∧ s'.role = s.role ∧ s'.prevote = s.prevote ∧ ∃ es, s'.trace = s.trace ++ es ∧ ∀ e ∈ es, e.says = none

/-- `m` always ends normally, and nothing is told. -/
def SaysNoneOk (m : R Unit) : Prop := ∀ s, ∃ s', m s = (.ok ⟨⟩, s') ∧ SaysNone s s'

theorem SaysNone.refl (s : Srv) : SaysNone s s := ⟨rfl, rfl, rfl, [], (List.append_nil _).symm, fun _ h => (by cases h)⟩

theorem SaysNone.trans {s t u : Srv} (h : SaysNone s t) (g : SaysNone t u) : SaysNone s u := by
  obtain ⟨h0, h1, h2, es, h3, h4⟩ := h
  obtain ⟨g0, g1, g2, fs, g3, g4⟩ := g
  refine ⟨g0.trans h0, g1.trans h1, g2.trans h2, es ++ fs, by rw [g3, h3, List.append_assoc], fun e he => ?_⟩
  rcases List.mem_append.mp he with he | he
  · exact h4 e he
  · exact g4 e he

theorem saysNoneOk_bind {m n : R Unit} (h : SaysNoneOk m) (g : SaysNoneOk n) : SaysNoneOk (m >>= fun _ => n) := fun s => by
  obtain ⟨t, h1, h2⟩ := h s
  obtain ⟨u, g1, g2⟩ := g t
  exact ⟨u, by rw [run_bind_ok h1]; exact g1, h2.trans g2⟩

theorem saysNoneOk_modPeer (r : PeerRef) (f : Peer → Peer) : SaysNoneOk (modPeer r f) := fun s => by
  refine ⟨_, rfl, ?_⟩
  cases r with
  | member id => exact ⟨rfl, rfl, rfl, [], (List.append_nil _).symm, fun _ h => (by cases h)⟩
  | joining => exact ⟨rfl, rfl, rfl, [], (List.append_nil _).symm, fun _ h => (by cases h)⟩

theorem saysNoneOk_forEach {α : Type} {f : α → R Unit} (h : ∀ a, SaysNoneOk (f a)) : ∀ as : List α, SaysNoneOk (forEach f as)
  | [] => fun s => ⟨s, rfl, .refl s⟩
  | a :: as => saysNoneOk_bind (h a) (saysNoneOk_forEach h as)

theorem saysNoneOk_leaderPeer (i : Int) : SaysNoneOk (leaderPeer i) := fun s => by
  unfold leaderPeer enableHb
  rw [bind_get]
  exact saysNoneOk_bind (saysNoneOk_modPeer _ _) (fun s => saysNoneOk_modPeer _ _ s) s

theorem saysNoneOk_initialConf : SaysNoneOk initialConf := fun s => by
  unfold initialConf
  rw [bind_get]
  by_cases h : s.config.logIdx = 0
  · rw [if_pos h]
    exact ⟨_, rfl, rfl, rfl, rfl, [_], rfl, fun e he => by rw [List.mem_singleton.mp he]; rfl⟩
  · rw [if_neg h]
    exact ⟨s, rfl, .refl s⟩

/-- A new leader tells its listener. -/
theorem ev_becomeLeader (s : Srv) (h : b = true → s.prevote = none) : RoleEv b s (becomeLeader s).2 := by
  rw [run_crowned, run_bind_ok (show peerIds s.crowned = (.ok _, s.crowned) from rfl)]
  obtain ⟨s1, e1, h1⟩ := saysNoneOk_forEach saysNoneOk_leaderPeer (s.crowned.peers.map Peer.id) s.crowned
  obtain ⟨s2, e2, h2⟩ := saysNoneOk_initialConf s1
  rw [run_bind_ok e1, run_bind_ok e2, bind_emit]
  refine evPo.trans ?_ (ev_requestAppendAll _)
  obtain ⟨q, r, p, es, ht, hn⟩ := h1.trans h2
  refine ⟨fun h => ⟨by rw [← h.1]; exact congrArg Params.prevote q, p.trans h.2⟩, [.lead s.term] ++ es ++ [.event .becomeLeader], ?_, fun _ => ?_, fun hb _ => ⟨fun _ => p.trans (h hb), fun _ => r⟩⟩
  · show s2.trace ++ _ = _
    rw [ht]
    show s.trace ++ [.lead s.term] ++ es ++ _ = _
    rw [List.append_assoc, List.append_assoc, List.append_assoc]
  · rw [hears_append]
    rfl

/-- A server that stops leading without telling: only if it did not lead. -/
theorem RoleEv.drop {s s' : Srv} (h0 : b = true → s.role ≠ .leader) (h1 : s'.role ≠ .leader) {e : Eff} (h2 : s'.trace = s.trace ++ [e])
    (h3 : e.says = none) (h4 : s.Direct → s'.Direct) : RoleEv b s s' := by
  refine ⟨h4, [e], h2, fun h => absurd h h1, fun hb _ => ⟨fun h => absurd h h1, fun h => ?_⟩⟩
  rw [decide_eq_false (h0 hb)] at h
  unfold hears at h
  rw [List.foldl_cons, h3] at h
  cases h

theorem ev_startTerm (s : Srv) (h : b = true → s.role ≠ .leader) : RoleEv b s (startTerm s).2 := by
  unfold startTerm
  rw [bind_modify, bind_modify, bind_modify, bind_modify]
  exact RoleEv.drop h (fun h => (by cases h)) rfl rfl fun h => ⟨h.1, rfl⟩

theorem ev_askForVotes (s : Srv) (h : b = true → s.prevote = none) : RoleEv b s (askForVotes s).2 := by
  unfold askForVotes
  rw [bind_get]
  by_cases hv : (s.peers.length + 1) / 2 < s.votesGranted
  · rw [if_pos hv, bind_modify]
    exact evPo.trans (RoleEv.calm rfl rfl rfl rfl) (ev_becomeLeader { s with electionCompleted := true } h)
  · rw [if_neg hv]
    have : Pres (RoleEv b) (do
        let ids ← peerIds
        forEach (askVote .voteReq) ids : R Unit) := by
      pres evPo using ev_peerIds, ev_askVote
    exact this s

theorem ev_bindAt {α β : Type} {m : R α} {k : α → R β} {s : Srv} (h1 : RoleEv b s (m s).2) (h2 : ∀ a, Pres (RoleEv b) (k a)) :
    RoleEv b s ((m >>= k) s).2 := by
  rw [run_bind]
  rcases hm : m s with ⟨e | a, t⟩
  · rw [hm] at h1; exact h1
  · rw [hm] at h1; exact evPo.trans h1 (h2 a t)

theorem ev_becomeCandidate (s : Srv) (h : b = true → s.role ≠ .leader) : RoleEv b s (becomeCandidate s).2 := by
  have hr : becomeCandidate s = (do
      askForVotes
      rearm : R Unit) (voteSelf (startTerm s).2).2 := rfl
  rw [hr]
  have h0 : (voteSelf (startTerm s).2).2.prevote = none := rfl
  refine evPo.trans (ev_startTerm s h) (evPo.trans (ev_voteSelf _) ?_)
  generalize (voteSelf (startTerm s).2).2 = t at h0 ⊢
  exact ev_bindAt (ev_askForVotes t fun _ => h0) fun _ => ev_rearm

theorem ev_requestPrevote (s : Srv) (h : s.role ≠ .leader) (hd : ¬ s.Direct) : RoleEv b s (requestPrevote s).2 := by
  unfold requestPrevote
  rw [bind_get]
  by_cases hp : s.peers = []
  · rw [if_pos hp]
    exact ev_becomeCandidate s fun _ => h
  · rw [if_neg hp, bind_modify]
    have : Pres (RoleEv b) (do
        let ids ← peerIds
        forEach (askVote .prevoteReq) ids : R Unit) := by
      pres evPo using ev_peerIds, ev_askVote
    exact evPo.trans (b := { s with prevote := match s.prevote with
      | none => some ([s.id], 1)
      | some (v, n) => some (addPrevoter v s.id, n + 1) })
      (RoleEv.low h h (List.append_nil _).symm (fun _ h => (by cases h)) fun h => absurd h hd) (this _)

theorem ev_handleElectionTimeout (s : Srv) : RoleEv b s (handleElectionTimeout s).2 := by
  unfold handleElectionTimeout
  rw [bind_modify, bind_get]
  refine evPo.trans (RoleEv.calm rfl rfl rfl rfl) (?_ : RoleEv b { s with armed := false } _)
  generalize { s with armed := false } = s
  have h1 : Pres (RoleEv b) (do
      modify fun s => { s with stepsToDown := s.stepsToDown - 1 }
      if s.stepsToDown - 1 = 0 then do
        leaveConfig
        die (-1)
      else restartElectionTimer : R Unit) := by
    pres evPo using ev_mod, ev_leaveConfig, ev_die, ev_restart
    all_goals evs
  by_cases c1 : 0 < s.stepsToDown
  · rw [if_pos c1]; exact h1 s
  rw [if_neg c1]
  by_cases c2 : s.catchingUp = true
  · rw [if_pos c2]; exact ev_restart s
  rw [if_neg c2]
  by_cases c3 : s.role = .leader
  · rw [if_pos c3]; exact ev_die _ s
  rw [if_neg c3]
  by_cases c4 : s.params.prevote = true ∧ s.role = .follower
  · rw [if_pos c4]
    have hd : ¬ s.Direct := fun h => (by rw [h.1] at c4; cases c4.1)
    show At (RoleEv b) s _
    split
    · split
      · exact evPo.refl s
      · exact ev_requestPrevote s c3 hd
    · exact ev_requestPrevote s c3 hd
  · rw [if_neg c4]; exact ev_becomeCandidate s fun _ => c3

theorem ev_handleVotingResp (r : Resp) (s : Srv) (h : b = true → s.prevote = none) : RoleEv b s (handleVotingResp r s).2 := by
  unfold handleVotingResp
  rw [bind_get]
  by_cases c1 : r.term ≠ s.term ∨ s.electionCompleted = true ∨ r.src ∈ s.voted
  · rw [if_pos c1]; exact evPo.refl s
  rw [if_neg c1, bind_modify, bind_modify, bind_modify, bind_get]
  refine evPo.trans (RoleEv.calm rfl rfl rfl rfl) (?_ : RoleEv b { s with
    voted := r.src :: s.voted, votesGranted := if r.accepted then s.votesGranted + 1 else s.votesGranted,
    electionCompleted := if s.peers.length + 1 ≤ (r.src :: s.voted).length then true else s.electionCompleted } _)
  have h1 : b = true → { s with
    voted := r.src :: s.voted, votesGranted := if r.accepted then s.votesGranted + 1 else s.votesGranted,
    electionCompleted := if s.peers.length + 1 ≤ (r.src :: s.voted).length then true else s.electionCompleted }.prevote = none := h
  generalize { s with
    voted := r.src :: s.voted, votesGranted := if r.accepted then s.votesGranted + 1 else s.votesGranted,
    electionCompleted := if s.peers.length + 1 ≤ (r.src :: s.voted).length then true else s.electionCompleted } = s at h1 ⊢
  by_cases c2 : (s.peers.length + 1) / 2 < s.votesGranted
  · rw [if_pos c2, bind_modify]
    exact evPo.trans (RoleEv.calm rfl rfl rfl rfl) (ev_becomeLeader { s with electionCompleted := true } h1)
  · rw [if_neg c2]; exact evPo.refl s

theorem ev_dispatchResp (r : Resp) (s : Srv) (h : b = true → r.type = .voteResp → s.prevote = none) : RoleEv b s (dispatchResp r s).2 := by
  unfold dispatchResp
  show At (RoleEv b) s _
  split
  · next ht => exact ev_handleVotingResp r s fun hb => h hb ht
  · exact ev_handleAppendResp r s
  · exact ev_handleSnpResp r s
  · exact ev_die _ s

theorem ev_handlePeerResp (r : Resp) (s : Srv) (h : b = true → r.type = .voteResp → s.prevote = none) :
    RoleEv b s (handlePeerResp r s).2 := by
  unfold handlePeerResp
  rw [bind_get]
  by_cases c1 : (s.findPeer r.src).isNone = true
  · rw [if_pos c1]; exact evPo.refl s
  rw [if_neg c1, bind_modPeer]
  refine evPo.trans (ev_modPeer (.member r.src) (fun p => { p with lastResp := s.now }) s) ?_
  show RoleEv b (s.setPeer (.member r.src) fun p => { p with lastResp := s.now }) _
  have h1 : (s.setPeer (.member r.src) fun p => { p with lastResp := s.now }).prevote = s.prevote := rfl
  generalize (s.setPeer (.member r.src) fun p => { p with lastResp := s.now }) = t at h1 ⊢
  have hu := ev_updateTerm (b := b) r.term t
  by_cases c2 : t.term < r.term
  · rw [run_updateTerm_gt c2] at hu
    rw [run_bind_ok (run_updateTerm_gt c2), if_pos rfl]
    exact hu
  · rw [run_bind_ok (run_updateTerm_le (Nat.le_of_not_lt c2)), if_neg (fun h => (by cases h))]
    exact ev_dispatchResp r t fun hb ht => h1.trans (h hb ht)

/-- The second half, for settled servers only. -/
theorem RoleEv.settled {s s' : Srv} (h0 : RoleEv false s s') (h1 : b = true → s.Settled → RoleEv b s s') : RoleEv b s s' := by
  obtain ⟨d, es, e1, f1, _⟩ := h0
  refine ⟨d, es, e1, f1, fun hb hs => ?_⟩
  obtain ⟨_, fs, e2, _, g2⟩ := h1 hb hs
  have : es = fs := List.append_cancel_left (e1.symm.trans e2)
  rw [this]
  exact g2 hb hs

theorem RoleEv.quiet {s s' : Srv} (h1 : s'.role = s.role) (h2 : s'.trace = s.trace) (h3 : b = true → s.role ≠ .leader)
    (h4 : s.Direct → s'.Direct) : RoleEv b s s' :=
  ⟨h4, [], by rw [h2, List.append_nil], fun h => decide_eq_true (h1 ▸ h), fun hb _ =>
    ⟨fun h => absurd (h1 ▸ h) (h3 hb), fun h => absurd (of_decide_eq_true h) (h3 hb)⟩⟩

theorem ev_prevoteResp (r : Resp) (s : Srv) (h : b = true → s.prevote ≠ none → s.role ≠ .leader) : RoleEv b s (handlePrevoteResp r s).2 := by
  unfold handlePrevoteResp
  rw [bind_get]
  show At (RoleEv b) s _
  split
  · exact evPo.refl s
  · next v n hp =>
    have hl : b = true → s.role ≠ .leader := fun hb => h hb (by rw [hp]; exact fun h => (by cases h))
    split
    · exact evPo.refl s
    · show RoleEv b s _
      rw [bind_modify]
      have h1 : RoleEv b s { s with prevote := some (r.src :: v, if r.accepted then n + 1 else n) } := RoleEv.quiet rfl rfl hl fun h => (by rw [h.2] at hp; cases hp)
      have hl1 : b = true → { s with prevote := some (r.src :: v, if r.accepted then n + 1 else n) }.role ≠ .leader := hl
      refine evPo.trans h1 ?_
      have hd : ¬ { s with prevote := some (r.src :: v, if r.accepted then n + 1 else n) }.Direct := fun h => (by cases h.2)
      generalize { s with prevote := some (r.src :: v, if r.accepted then n + 1 else n) } = t at hl1 hd ⊢
      generalize (if r.accepted = true then n + 1 else n) = m
      show At (RoleEv b) t _
      split
      · exact ev_becomeCandidate t hl1
      · split
        · show RoleEv b t _
          rw [bind_modify]
          exact evPo.trans (b := { t with prevote := some ([], 0) }) (RoleEv.quiet rfl rfl hl1 fun h => absurd h hd) (ev_restart _)
        · exact evPo.refl t

theorem ev_handlePrevoteResp (r : Resp) (s : Srv) : RoleEv b s (handlePrevoteResp r s).2 :=
  RoleEv.settled (ev_prevoteResp r s fun h => (by cases h)) fun _ hs => ev_prevoteResp r s fun _ hp hr => hp (hs hr)

theorem ev_handleExtResp (r : Resp) : Pres (RoleEv b) (handleExtResp r) := by
  unfold handleExtResp
  refine pres_getBind fun s => ?_
  have h1 : Pres (RoleEv b) (do
      modPeer .joining fun p => { p with nextIdx := r.nextIdx, matched := subU64 r.nextIdx 1 }
      syncLogToNewSrv r.nextIdx : R Unit) := by
    pres evPo using ev_modPeer, ev_syncLogToNewSrv
    all_goals evs
  show At (RoleEv b) s _
  split
  · split
    · exact evPo.refl s
    · exact evPo.trans (ev_modPeer .joining (resumeHb s.params) s) (h1 _)
  · split
    · exact evPo.refl s
    · split
      · exact ev_syncLogToNewSrv _ s
      · exact evPo.refl s
  · split
    · exact ev_rmSrvFromCluster _ s
    · exact evPo.refl s
  · exact ev_handleExtSnpResp r s
  · exact ev_handlePrevoteResp r s
  · exact ev_die _ s

/-! ## Whole inputs -/

theorem ev_handleJoin (r : Req) : Pres (RoleEv false) (handleJoin r) := by
  unfold handleJoin
  refine pres_getBind fun s => ?_
  show At (RoleEv false) s _
  split
  · next t c he =>
    split
    · exact evPo.refl s
    · have h1 : Pres (RoleEv false) (do
          modify fun s => { s with catchingUp := true, role := .follower, leader := r.src }
          modify fun s => { s with smCommit := 0, quickCommit := 0 }
          modify fun s => { s with vote := -1, term := r.term }
          saveState
          reconfigure c
          let s' ← get
          pure { type := .joinResp, term := s.term, src := s.id, dst := r.src, nextIdx := s'.log.next, accepted := true } : R Resp) := by
        pres evPo using ev_mod, ev_saveState, ev_reconfigure
        · exact ⟨fun h => h, [], (List.append_nil _).symm, fun h => (by cases h), fun h => (by cases h)⟩
        all_goals evs
      exact h1 s
  · exact evPo.refl s

theorem ev_dispatch (r : Req) (hj : b = true → r.type ≠ .joinReq) : Pres (RoleEv b) (dispatch r) := by
  have h1 : Pres (RoleEv b) (handleExtended r) := by
    unfold handleExtended
    split
    · exact ev_handleAddSrv r
    · exact ev_handleRmSrv r
    · exact ev_handleLogSync r
    · next h =>
      cases b with
      | true => exact absurd h (hj rfl)
      | false => exact ev_handleJoin r
    · exact ev_handleLeave r
    · exact ev_handleInstallSnapshot r
    · exact ev_handlePrevoteReq r
    · exact ev_die _
  unfold dispatch
  pres evPo using ev_handleAppendEntries, ev_handleVoteReq, ev_handleCliReq, h1

/-- Is a vote counted? -/
def Input.isVote : Input → Bool
  | .peerResp _ r => r.type == .voteResp
  | _ => false

theorem ev_run (x : Input) (s : Srv) (hx : b = true → x.isJoin = false ∧ (x.isVote = true → s.prevote = none)) :
    RoleEv b s (x.run s).2 := by
  cases x with
  | req r =>
    show RoleEv b s ((processReq r >>= fun resp => emit (.reply resp)) s).2
    unfold processReq
    refine pres_bind evPo (pres_bind evPo (ev_hearTerm r) fun _ => ev_dispatch r fun hb h => ?_) (fun q => ev_emit _ rfl) s
    have : (r.type == .joinReq) = false := (hx hb).1
    rw [h] at this
    cases this
  | peerResp ty r =>
    show RoleEv b s ((rpcResult (.member r.src) ty true >>= fun _ => handlePeerResp r) s).2
    have h0 := ev_rpcResult (b := b) (.member r.src) ty true s
    have h1 : rpcResult (.member r.src) ty true s = (.ok ⟨⟩, (rpcResult (.member r.src) ty true s).2) := rfl
    have h2 : (rpcResult (.member r.src) ty true s).2.prevote = s.prevote := rfl
    rw [run_bind_ok h1]
    refine evPo.trans h0 (ev_handlePeerResp r _ fun hb ht => h2.trans ((hx hb).2 ?_))
    show (r.type == .voteResp) = true
    rw [ht]; rfl
  | extResp p ty r => exact pres_bind evPo (ev_rpcResult _ _ _) (fun _ => ev_handleExtResp r) s
  | peerErr r => exact ev_rpcResult _ _ _ s
  | extErr p r => exact pres_bind evPo (ev_rpcResult _ _ _) (fun _ => ev_handleExtErr r) s
  | retry r => exact ev_retryReq r s
  | electionTimeout => exact ev_handleElectionTimeout s
  | hbTimeout id => exact ev_handleHbTimeout _ s
  | apply => exact ev_applyOne s
  | snapDone q ok =>
    exact pres_ite (pres_bind evPo (ev_keepSnap q) fun _ => ev_onSnapshotCompleted q true) (ev_onSnapshotCompleted q false) s
  | replicate d => exact pres_bind evPo (ev_replicateLog d) (fun _ => pres_pure evPo _) s
  | tick n => exact ev_mod (fun s => RoleEv.calm rfl rfl rfl rfl) s

end Cs.Raft
