import Verif.Raft.Frame
import Verif.Raft.Spec

/-!
# Terms and votes of one server

Every input except an invitation to join changes term and vote only along `VPath`.
-/

namespace Cs.Raft
open Cs

/-- Effects that do not say anything about term and vote. -/
def Eff.Neutral : Eff → Prop
  | .saveState _ _ => False
  | .send r => r.type ≠ .voteReq
  | .reply r => ¬(r.type = .voteResp ∧ r.accepted = true)
  | _ => True

/-- How one effect of server `id` changes term and vote; `nm` says that requests name a server as their source. -/
inductive VStep (nm : Prop) (id : Int) : Nat × Int → Eff → Nat × Int → Prop
  | raise {t0 t : Nat} {v0 : Int} : t0 < t → VStep nm id (t0, v0) (.saveState t (-1)) (t, -1)
  | save {t : Nat} {v0 v : Int} : (v0 = -1 ∨ v = v0) → VStep nm id (t, v0) (.saveState t v) (t, v)
  | ask {t : Nat} {r : Req} : r.type = .voteReq → r.term = t → r.src = id → VStep nm id (t, id) (.send r) (t, id)
  | grant {t : Nat} {v : Int} {r : Resp} : r.type = .voteResp → r.accepted = true → r.term = t → r.dst = v → (nm → v ≠ -1) →
      VStep nm id (t, v) (.reply r) (t, v)
  | other {tv : Nat × Int} {e : Eff} : e.Neutral → VStep nm id tv e tv

/-- The same for a list of effects. -/
inductive VPath (nm : Prop) (id : Int) : Nat × Int → List Eff → Nat × Int → Prop
  | nil {a} : VPath nm id a [] a
  | cons {a b c e es} : VStep nm id a e b → VPath nm id b es c → VPath nm id a (e :: es) c

variable {nm : Prop}

theorem VPath.append {id : Int} {a b c : Nat × Int} {xs ys : List Eff} (h1 : VPath nm id a xs b) (h2 : VPath nm id b ys c) :
    VPath nm id a (xs ++ ys) c := by
  induction h1 with
  | nil => exact h2
  | cons h _ ih => exact .cons h (ih h2)

theorem VPath.one {id : Int} {a b : Nat × Int} {e : Eff} (h : VStep nm id a e b) : VPath nm id a [e] b := .cons h .nil

theorem VPath.all {id : Int} {a : Nat × Int} : ∀ {es : List Eff}, (∀ e ∈ es, VStep nm id a e a) → VPath nm id a es a
  | [], _ => .nil
  | e :: es, h => .cons (h e (by simp)) (VPath.all fun x hx => h x (by simp [hx]))

/-- Term and vote move along a path. -/
def VP (nm : Prop) (s s' : Srv) : Prop :=
  s'.id = s.id ∧ ∃ es, s'.trace = s.trace ++ es ∧ VPath nm s.id (s.term, s.vote) es (s'.term, s'.vote)

theorem VP.refl (s : Srv) : VP nm s s := ⟨rfl, [], by simp, .nil⟩
theorem VP.trans {a b c : Srv} (h1 : VP nm a b) (h2 : VP nm b c) : VP nm a c := by
  obtain ⟨i1, e1, t1, p1⟩ := h1
  obtain ⟨i2, e2, t2, p2⟩ := h2
  rw [i1] at p2
  exact ⟨i2.trans i1, e1 ++ e2, by rw [t2, t1, List.append_assoc], p1.append p2⟩
theorem vpo : PO (VP nm) := ⟨VP.refl, VP.trans⟩

theorem vp_quiet {s s' : Srv} (h1 : s'.id = s.id) (h2 : s'.term = s.term) (h3 : s'.vote = s.vote)
    (h4 : s'.trace = s.trace) : VP nm s s' := ⟨h1, [], by rw [h4]; simp, by rw [h2, h3]; exact .nil⟩

theorem vp_mod {f : Srv → Srv}
    (h : ∀ s, (f s).id = s.id ∧ (f s).term = s.term ∧ (f s).vote = s.vote ∧ (f s).trace = s.trace) :
    Pres (VP nm) (modify f : R PUnit) := fun s => vp_quiet (h s).1 (h s).2.1 (h s).2.2.1 (h s).2.2.2

theorem vp_emit {e : Eff} (h : e.Neutral) : Pres (VP nm) (emit e) := fun _ =>
  ⟨rfl, [e], rfl, .one (.other h)⟩

theorem vp_die {α : Type} (c : Int) : Pres (VP nm) (die c : R α) := by
  unfold die
  pres vpo using vp_emit
  trivial

theorem vp_saveState : Pres (VP nm) saveState := fun s => ⟨rfl, [.saveState s.term s.vote], rfl, .one (.save (.inr rfl))⟩

theorem vp_modPeer (r : PeerRef) (f : Peer → Peer) : Pres (VP nm) (modPeer r f) := by
  intro s
  cases r <;> exact vp_quiet rfl rfl rfl rfl

theorem frame_vp {s s' : Srv} {ty : MsgType → Prop} (hty : ¬ ty .voteReq) (h : Frame ty s s') : VP nm s s' := by
  obtain ⟨p, j, es, rfl, _, _, hes⟩ := h
  refine ⟨rfl, es, rfl, VPath.all ?_⟩
  intro e he
  rcases hes e he with rfl | ⟨r, rfl, hs, ht⟩
  · exact .other trivial
  · exact .other (fun h => hty (h ▸ ht))

theorem frame_vote_vp {s s' : Srv} (hv : s.vote = s.id) (h : Frame (· = .voteReq) s s') : VP nm s s' := by
  obtain ⟨p, j, es, rfl, _, _, hes⟩ := h
  refine ⟨rfl, es, rfl, VPath.all ?_⟩
  intro e he
  rcases hes e he with rfl | ⟨r, rfl, hs, ht⟩
  · exact .other trivial
  · have : r.term = s.term ∧ r.src = s.id := by cases hs <;> exact ⟨rfl, rfl⟩
    show VStep nm s.id (s.term, s.vote) _ (s.term, s.vote)
    rw [hv]
    exact .ask ht this.1 this.2

theorem vp_of_frame {α : Type} {m : R α} (h : Pres (Frame isRepl) m) : Pres (VP nm) m := fun s =>
  frame_vp (by unfold isRepl; rintro (h | h) <;> cases h) (h s)

theorem vp_requestAppendTo (id : Int) : Pres (VP nm) (requestAppendTo id) := vp_of_frame (requestAppendTo_frame id)
theorem vp_requestAppend (r : PeerRef) : Pres (VP nm) (requestAppend r) := vp_of_frame (requestAppend_frame r)
theorem vp_commitNotify (id : Int) : Pres (VP nm) (commitNotify id) := vp_of_frame (commitNotify_frame id)
theorem vp_leaderPeer (id : Int) : Pres (VP nm) (leaderPeer id) := vp_of_frame (leaderPeer_frame id)
theorem vp_getPeer (r : PeerRef) : Pres (VP nm) (getPeer r) := vp_of_frame (getPeer_frame _ r)
theorem vp_createSync (r : PeerRef) (i t c : Nat) : Pres (VP nm) (createSyncSnapshotReq r i t c) :=
  vp_of_frame fun s => (createSync_frame isRepl r i t c s).1
theorem vp_prevote (id : Int) : Pres (VP nm) (askVote .prevoteReq id) := fun s =>
  frame_vp (by intro h; cases h) (askVote_frame .prevoteReq (.inr rfl) id s)
theorem vp_peerIds : Pres (VP nm) peerIds := fun s => VP.refl s
theorem vp_termForLog (i : Nat) : Pres (VP nm) (termForLog i) := by
  unfold termForLog termAt
  pres vpo using vp_die
theorem vp_termAt (i : Nat) : Pres (VP nm) (termAt i) := by
  unfold termAt
  pres vpo using vp_die
theorem vp_entryAt (i : Nat) : Pres (VP nm) (entryAt i) := by
  unfold entryAt
  pres vpo using vp_die
theorem vp_entryToApply (i : Nat) : Pres (VP nm) (entryToApply i) := by
  unfold entryToApply
  pres vpo using vp_die
theorem vp_restart : Pres (VP nm) restartElectionTimer := by
  unfold restartElectionTimer
  pres vpo using vp_mod
  exact ⟨rfl, rfl, rfl, rfl⟩
theorem vp_stop : Pres (VP nm) stopElectionTimer := by
  unfold stopElectionTimer
  pres vpo using vp_mod
  exact ⟨rfl, rfl, rfl, rfl⟩
theorem vp_enableHb (r : PeerRef) : Pres (VP nm) (enableHb r) := by
  unfold enableHb
  pres vpo using vp_modPeer
theorem vp_becomeFollower : Pres (VP nm) becomeFollower := by
  unfold becomeFollower
  pres vpo using vp_mod, vp_restart, vp_emit
  all_goals first | trivial | exact ⟨rfl, rfl, rfl, rfl⟩
theorem vp_commit (n : Nat) : Pres (VP nm) (commit n) := by
  unfold commit
  pres vpo using vp_mod, vp_emit, vp_peerIds, vp_commitNotify
  all_goals first | trivial | exact ⟨rfl, rfl, rfl, rfl⟩
theorem vp_requestAppendAll : Pres (VP nm) requestAppendAll := by
  unfold requestAppendAll
  pres vpo using vp_commit, vp_peerIds, vp_requestAppendTo
theorem vp_logAppend (e : Entry) : Pres (VP nm) (logAppend e) := by
  unfold logAppend
  pres vpo using vp_mod, vp_emit
  all_goals first | trivial | exact ⟨rfl, rfl, rfl, rfl⟩
theorem vp_logWriteAt (i : Nat) (e : Entry) : Pres (VP nm) (logWriteAt i e) := by
  unfold logWriteAt
  pres vpo using vp_mod, vp_emit
  all_goals first | trivial | exact ⟨rfl, rfl, rfl, rfl⟩
theorem vp_logApplyPack (i : Nat) (es : List Entry) : Pres (VP nm) (logApplyPack i es) := by
  unfold logApplyPack
  pres vpo using vp_mod, vp_emit
  all_goals first | trivial | exact ⟨rfl, rfl, rfl, rfl⟩
theorem vp_logCompact (i : Nat) : Pres (VP nm) (logCompact i) := by
  unfold logCompact
  pres vpo using vp_mod, vp_emit
  all_goals first | trivial | exact ⟨rfl, rfl, rfl, rfl⟩
theorem vp_initialConf : Pres (VP nm) initialConf := by
  unfold initialConf
  pres vpo using vp_mod, vp_logAppend
  all_goals exact ⟨rfl, rfl, rfl, rfl⟩
theorem vp_becomeLeader : Pres (VP nm) becomeLeader := by
  unfold becomeLeader
  pres vpo using vp_mod, vp_emit, vp_stop, vp_peerIds, vp_leaderPeer, vp_initialConf, vp_requestAppendAll
  all_goals first | trivial | exact ⟨rfl, rfl, rfl, rfl⟩

theorem vp_updateTerm (t : Nat) : Pres (VP nm) (updateTerm t) := by
  intro s
  unfold updateTerm
  rw [bind_get]
  by_cases h : s.term < t
  · rw [if_pos h, bind_modify, bind_modify, bind_saveState]
    refine VP.trans (b := { s with
        term := t, vote := -1, electionCompleted := false, votesGranted := 0, voted := [],
        trace := s.trace ++ [.saveState t (-1)] })
      ⟨rfl, [.saveState t (-1)], rfl, .one (.raise h)⟩ ?_
    exact pres_bind vpo vp_becomeFollower (fun _ => pres_pure vpo _) _
  · rw [if_neg h]; exact VP.refl s

theorem vp_askAll (s : Srv) (hv : s.vote = s.id) (ids : List Int) : VP nm s (forEach (askVote .voteReq) ids s).2 :=
  frame_vote_vp hv (pres_forEach (Frame.po _) (askVote_frame .voteReq (.inl rfl)) ids s)

theorem vp_voteSelf (s : Srv) (hv : s.vote = -1) : VP nm s (voteSelf s).2 :=
  ⟨rfl, [.saveState s.term s.id], rfl, .one (.save (.inl hv))⟩

theorem vp_askForVotes (s : Srv) (hv : s.vote = s.id) : VP nm s (askForVotes s).2 := by
  unfold askForVotes
  rw [bind_get]
  split
  · rw [bind_modify]
    exact VP.trans (vp_quiet rfl rfl rfl rfl) (vp_becomeLeader _)
  · rw [bind_peerIds]
    exact VP.trans (vp_quiet rfl rfl rfl rfl) (vp_askAll _ hv _)

theorem vp_requestVote (s : Srv) (hv : s.vote = -1) : VP nm s (requestVote s).2 := by
  unfold requestVote
  exact VP.trans (vp_voteSelf s hv) (vp_askForVotes _ rfl)

theorem vp_rearm : Pres (VP nm) rearm := by
  unfold rearm
  pres vpo using vp_restart

theorem vp_startTerm : Pres (VP nm) startTerm := fun s =>
  ⟨rfl, [.saveState (s.term + 1) (-1)], rfl, .one (.raise (Nat.lt_succ_self _))⟩

theorem vp_becomeCandidate : Pres (VP nm) becomeCandidate := by
  intro s
  unfold becomeCandidate
  refine VP.trans (vp_startTerm s) ?_
  show VP nm _ ((requestVote >>= fun _ => rearm) (startTerm s).2).2
  have h1 := vp_requestVote (nm := nm) (startTerm s).2 rfl
  rw [run_bind]
  rcases hr : requestVote (startTerm s).2 with ⟨e | u, s2⟩
  · rw [hr] at h1; exact h1
  · rw [hr] at h1
    exact VP.trans h1 (vp_rearm s2)

theorem vp_requestPrevote : Pres (VP nm) requestPrevote := by
  unfold requestPrevote
  pres vpo using vp_becomeCandidate, vp_mod, vp_peerIds, vp_prevote
  all_goals exact ⟨rfl, rfl, rfl, rfl⟩
theorem vp_leaveConfig : Pres (VP nm) leaveConfig := by
  unfold leaveConfig
  pres vpo using vp_mod, vp_emit
  all_goals first | trivial | exact ⟨rfl, rfl, rfl, rfl⟩
theorem vp_handleElectionTimeout : Pres (VP nm) handleElectionTimeout := by
  unfold handleElectionTimeout
  pres vpo using vp_mod, vp_leaveConfig, vp_die, vp_restart, vp_requestPrevote, vp_becomeCandidate
  all_goals exact ⟨rfl, rfl, rfl, rfl⟩
theorem vp_handleHbTimeout (r : PeerRef) : Pres (VP nm) (handleHbTimeout r) := by
  unfold handleHbTimeout
  pres vpo using vp_modPeer, vp_requestAppend

/-! ## Requests -/

theorem vp_skipSame : ∀ (es : List Entry) (i : Nat), Pres (VP nm) (skipSame i es)
  | [], _ => pres_pure vpo _
  | e :: es, i => by
    have ih := vp_skipSame es
    unfold skipSame
    pres vpo using vp_termAt, ih
theorem vp_rollbackOld (i : Nat) : Pres (VP nm) (rollbackOld i) := by
  unfold rollbackOld
  pres vpo using vp_entryAt, vp_emit, vp_mod
  all_goals first | trivial | exact ⟨rfl, rfl, rfl, rfl⟩
theorem vp_noteNew (i : Nat) (e : Entry) : Pres (VP nm) (noteNew i e) := by
  unfold noteNew
  pres vpo using vp_emit, vp_mod
  all_goals first | trivial | exact ⟨rfl, rfl, rfl, rfl⟩
theorem vp_overwriteOld : ∀ (es : List Entry) (i : Nat), Pres (VP nm) (overwriteOld i es)
  | [], _ => pres_pure vpo _
  | e :: es, i => by
    have ih := vp_overwriteOld es
    unfold overwriteOld
    pres vpo using vp_rollbackOld, vp_logWriteAt, vp_noteNew, ih
theorem vp_appendNew : ∀ (es : List Entry), Pres (VP nm) (appendNew es)
  | [] => pres_pure vpo _
  | e :: es => by
    have ih := vp_appendNew es
    unfold appendNew
    pres vpo using vp_logAppend, vp_noteNew, ih
theorem vp_storeEntries (r : Req) : Pres (VP nm) (storeEntries r) := by
  unfold storeEntries
  pres vpo using vp_skipSame, vp_overwriteOld, vp_appendNew
theorem vp_hearLeader (r : Req) : Pres (VP nm) (hearLeader r) := by
  unfold hearLeader
  pres vpo using vp_becomeFollower, vp_die, vp_restart
theorem vp_logOkay (r : Req) : Pres (VP nm) (logOkay r) := by
  unfold logOkay
  pres vpo using vp_termForLog
theorem vp_handleAppendEntries (r : Req) : Pres (VP nm) (handleAppendEntries r) := by
  unfold handleAppendEntries
  pres vpo using vp_hearLeader, vp_logOkay, vp_storeEntries, vp_mod, vp_commit
  all_goals exact ⟨rfl, rfl, rfl, rfl⟩
theorem vp_handlePrevoteReq (r : Req) : Pres (VP nm) (handlePrevoteReq r) := by
  unfold handlePrevoteReq
  pres vpo using vp_mod
theorem vp_isLeader : Pres (VP nm) isLeader := by
  unfold isLeader
  pres vpo using vp_mod
  all_goals exact ⟨rfl, rfl, rfl, rfl⟩
theorem vp_appendClient : ∀ (es : List Entry), Pres (VP nm) (appendClient es)
  | [] => pres_pure vpo _
  | e :: es => by
    have ih := vp_appendClient es
    unfold appendClient
    pres vpo using vp_logAppend, vp_emit, ih
    all_goals trivial
theorem vp_handleCliReq (r : Req) : Pres (VP nm) (handleCliReq r) := by
  unfold handleCliReq
  pres vpo using vp_isLeader, vp_appendClient, vp_requestAppendAll
theorem vp_addPeer (c : SrvCfg) : Pres (VP nm) (addPeer c) := by
  unfold addPeer
  pres vpo using vp_mod, vp_enableHb, vp_modPeer
  all_goals first | exact ⟨rfl, rfl, rfl, rfl⟩ | (split <;> exact ⟨rfl, rfl, rfl, rfl⟩)
theorem vp_removePeer (c : Config) (i : Int) : Pres (VP nm) (removePeer c i) := by
  unfold removePeer
  pres vpo using vp_mod, vp_emit, vp_die
  all_goals first | trivial | exact ⟨rfl, rfl, rfl, rfl⟩
theorem vp_reconfigure (c : Config) : Pres (VP nm) (reconfigure c) := by
  unfold reconfigure
  pres vpo using vp_addPeer, vp_removePeer, vp_mod
  all_goals exact ⟨rfl, rfl, rfl, rfl⟩
theorem vp_installSnapshot (q : Snap) : Pres (VP nm) (installSnapshot q) := by
  unfold installSnapshot
  pres vpo using vp_die, vp_logCompact, vp_stop, vp_emit, vp_mod, vp_reconfigure, vp_saveState, vp_restart
  all_goals first | trivial | exact ⟨rfl, rfl, rfl, rfl⟩
theorem vp_handleSnapshotSync (q : SnpSync) : Pres (VP nm) (handleSnapshotSync q) := by
  unfold handleSnapshotSync
  pres vpo using vp_emit, vp_die, vp_installSnapshot
  all_goals trivial
theorem vp_hearSnapshotLeader (r : Req) : Pres (VP nm) (hearSnapshotLeader r) := by
  unfold hearSnapshotLeader
  pres vpo using vp_becomeFollower, vp_die, vp_restart
theorem vp_handleInstallSnapshot (r : Req) : Pres (VP nm) (handleInstallSnapshot r) := by
  unfold handleInstallSnapshot
  pres vpo using vp_hearSnapshotLeader, vp_handleSnapshotSync
theorem vp_handleRmSrv (r : Req) : Pres (VP nm) (handleRmSrv r) := by
  unfold handleRmSrv
  pres vpo using vp_emit
  intro h; cases h
theorem vp_inviteSrv : Pres (VP nm) inviteSrv := by
  unfold inviteSrv
  pres vpo using vp_getPeer, vp_emit
  intro h; cases h
theorem vp_handleAddSrv (r : Req) : Pres (VP nm) (handleAddSrv r) := by
  unfold handleAddSrv
  pres vpo using vp_mod, vp_inviteSrv
  all_goals exact ⟨rfl, rfl, rfl, rfl⟩
theorem vp_handleLogSync (r : Req) : Pres (VP nm) (handleLogSync r) := by
  unfold handleLogSync
  pres vpo using vp_logApplyPack, vp_commit
  all_goals first | trivial | exact ⟨rfl, rfl, rfl, rfl⟩
theorem vp_handleLeave (r : Req) : Pres (VP nm) (handleLeave r) := by
  unfold handleLeave
  pres vpo using vp_mod
  all_goals exact ⟨rfl, rfl, rfl, rfl⟩
theorem vp_hearTerm (r : Req) : Pres (VP nm) (hearTerm r) := by
  unfold hearTerm
  pres vpo using vp_updateTerm, vp_mod
  all_goals exact ⟨rfl, rfl, rfl, rfl⟩

/-! ## Responses -/

theorem vp_acceptedResp (r : Resp) : Pres (VP nm) (acceptedResp r) := by
  unfold acceptedResp
  pres vpo using vp_modPeer, vp_commit, vp_getPeer
theorem vp_refusedResp (r : Resp) : Pres (VP nm) (refusedResp r) := by
  unfold refusedResp
  pres vpo using vp_modPeer
theorem vp_handleAppendResp (r : Resp) : Pres (VP nm) (handleAppendResp r) := by
  unfold handleAppendResp
  pres vpo using vp_acceptedResp, vp_refusedResp, vp_requestAppendTo
theorem vp_acceptedSnpResp (r : Resp) : Pres (VP nm) (acceptedSnpResp r) := by
  unfold acceptedSnpResp
  pres vpo using vp_modPeer, vp_getPeer
theorem vp_handleSnpResp (r : Resp) : Pres (VP nm) (handleSnpResp r) := by
  unfold handleSnpResp
  pres vpo using vp_acceptedSnpResp, vp_requestAppendTo
theorem vp_handleVotingResp (r : Resp) : Pres (VP nm) (handleVotingResp r) := by
  unfold handleVotingResp
  pres vpo using vp_mod, vp_becomeLeader
  all_goals exact ⟨rfl, rfl, rfl, rfl⟩
theorem vp_dispatchResp (r : Resp) : Pres (VP nm) (dispatchResp r) := by
  unfold dispatchResp
  pres vpo using vp_handleVotingResp, vp_handleAppendResp, vp_handleSnpResp, vp_die
theorem vp_handlePeerResp (r : Resp) : Pres (VP nm) (handlePeerResp r) := by
  unfold handlePeerResp
  pres vpo using vp_modPeer, vp_updateTerm, vp_dispatchResp
theorem vp_handlePrevoteResp (r : Resp) : Pres (VP nm) (handlePrevoteResp r) := by
  unfold handlePrevoteResp
  pres vpo using vp_mod, vp_becomeCandidate, vp_restart
  all_goals exact ⟨rfl, rfl, rfl, rfl⟩
theorem vp_addToConfig : Pres (VP nm) addToConfig := by
  unfold addToConfig
  pres vpo using vp_logAppend, vp_mod, vp_requestAppendAll
  all_goals exact ⟨rfl, rfl, rfl, rfl⟩
theorem createSync_type (r : PeerRef) (i t c : Nat) (s : Srv) :
    Gives (fun q => q.type = .snpReq) (createSyncSnapshotReq r i t c s).1 := by
  intro q hq
  obtain ⟨_, _, _, rfl⟩ := (createSync_frame isRepl r i t c s).2 q hq
  rfl
theorem vp_sendSync (r : PeerRef) (i t c : Nat) :
    Pres (VP nm) (createSyncSnapshotReq r i t c >>= fun q => emit (.send q)) := by
  intro s
  have h1 := vp_createSync (nm := nm) r i t c s
  have h2 := createSync_type r i t c s
  rw [run_bind]
  rcases hr : createSyncSnapshotReq r i t c s with ⟨e | q, s2⟩
  · rw [hr] at h1; exact h1
  · rw [hr] at h1 h2
    refine VP.trans h1 (vp_emit ?_ s2)
    show q.type ≠ .voteReq
    rw [h2 q rfl]
    intro h; cases h
theorem vp_syncLogToNewSrv (i : Nat) : Pres (VP nm) (syncLogToNewSrv i) := by
  unfold syncLogToNewSrv
  pres vpo using vp_addToConfig, vp_sendSync, vp_getPeer, vp_emit
  intro h; cases h
theorem vp_rmSrvFromCluster (i : Int) : Pres (VP nm) (rmSrvFromCluster i) := by
  unfold rmSrvFromCluster
  pres vpo using vp_logAppend, vp_mod, vp_requestAppendAll
  all_goals exact ⟨rfl, rfl, rfl, rfl⟩
theorem vp_handleExtSnpResp (r : Resp) : Pres (VP nm) (handleExtSnpResp r) := by
  unfold handleExtSnpResp
  pres vpo using vp_die, vp_modPeer, vp_getPeer, vp_syncLogToNewSrv
theorem vp_handleExtResp (r : Resp) : Pres (VP nm) (handleExtResp r) := by
  unfold handleExtResp
  pres vpo using vp_die, vp_modPeer, vp_syncLogToNewSrv, vp_rmSrvFromCluster, vp_handleExtSnpResp, vp_handlePrevoteResp
theorem vp_forceRemove (i : Int) : Pres (VP nm) (forceRemove i) := by
  unfold forceRemove
  pres vpo using vp_mod, vp_rmSrvFromCluster
  all_goals exact ⟨rfl, rfl, rfl, rfl⟩
theorem vp_handleExtErr (r : Req) : Pres (VP nm) (handleExtErr r) := by
  unfold handleExtErr
  pres vpo using vp_mod, vp_forceRemove, vp_modPeer
  all_goals exact ⟨rfl, rfl, rfl, rfl⟩
theorem vp_rpcResult (p : PeerRef) (ty : MsgType) (ok : Bool) : Pres (VP nm) (rpcResult p ty ok) := by
  unfold rpcResult
  pres vpo using vp_modPeer
theorem vp_retryReq (r : Req) : Pres (VP nm) (retryReq r) := by
  intro s
  unfold retryReq
  split
  · rename_i h
    have h' : r.type ≠ .voteReq := by rcases h with h | h | h <;> rw [h] <;> intro h <;> cases h
    exact vp_emit (e := .send r) h' s
  · exact VP.refl s

/-! ## Commit thread and application -/

theorem vp_commitConf (c : Config) : Pres (VP nm) (commitConf c) := by
  unfold commitConf
  pres vpo using vp_emit, vp_mod, vp_reconfigure
  all_goals first | trivial | exact ⟨rfl, rfl, rfl, rfl⟩
theorem vp_findConf (i : Nat) : ∀ (n : Nat) (c : Config), Pres (VP nm) (findConf i n c)
  | 0, _ => pres_throw vpo _
  | n + 1, c => by
    have ih := vp_findConf i n
    unfold findConf
    pres vpo using vp_entryAt, ih
theorem vp_confForSnap (i : Nat) : Pres (VP nm) (confForSnap i) := by
  unfold confForSnap
  pres vpo using vp_findConf, vp_die
theorem vp_startSnapshot (i : Nat) : Pres (VP nm) (startSnapshot i) := by
  unfold startSnapshot
  pres vpo using vp_confForSnap, vp_termAt, vp_emit
  all_goals trivial
theorem vp_snapshotAndCompact (i : Nat) : Pres (VP nm) (snapshotAndCompact i) := by
  unfold snapshotAndCompact
  pres vpo using vp_mod, vp_startSnapshot
  all_goals exact ⟨rfl, rfl, rfl, rfl⟩
theorem vp_keepSnap (q : Snap) : Pres (VP nm) (keepSnap q) := by
  unfold keepSnap
  pres vpo using vp_mod, vp_emit
  all_goals first | trivial | exact fun s => ⟨rfl, rfl, rfl, rfl⟩
theorem vp_onSnapshotCompleted (q : Snap) (ok : Bool) : Pres (VP nm) (onSnapshotCompleted q ok) := by
  unfold onSnapshotCompleted
  pres vpo using vp_mod, vp_logCompact
  all_goals exact ⟨rfl, rfl, rfl, rfl⟩
theorem vp_applyEntry (i : Nat) (e : Entry) : Pres (VP nm) (applyEntry i e) := by
  unfold applyEntry
  pres vpo using vp_emit, vp_commitConf
  all_goals trivial
theorem vp_applyOne : Pres (VP nm) applyOne := by
  unfold applyOne
  pres vpo using vp_mod, vp_entryToApply, vp_applyEntry, vp_snapshotAndCompact
  all_goals exact ⟨rfl, rfl, rfl, rfl⟩
theorem vp_replicateLog (d : Nat) : Pres (VP nm) (replicateLog d) := by
  unfold replicateLog
  pres vpo using vp_isLeader, vp_logAppend, vp_requestAppendAll

/-! ## Whole inputs -/

/-- After a positive answer to a vote request, term and vote are those of the answer. -/
def Announced (nm : Prop) (s : Srv) (r : Resp) : Prop :=
  r.type = .voteResp → r.accepted = true → r.term = s.term ∧ r.dst = s.vote ∧ (nm → s.vote ≠ -1)

theorem handleVoteReq_spec (r : Req) (hn : nm → r.src ≠ -1) (s : Srv) :
    VP nm s (handleVoteReq r s).2 ∧ Gives (Announced nm (handleVoteReq r s).2) (handleVoteReq r s).1 := by
  unfold handleVoteReq
  rw [bind_get]
  split
  · rename_i h
    rw [bind_modify, bind_saveState]
    refine ⟨⟨rfl, [.saveState s.term r.src], rfl, .one (.save ?_)⟩, ?_⟩
    · rcases h.2.2 with h | h
      · exact .inr h.symm
      · exact .inl h
    · rintro q ⟨⟩ _ _
      exact ⟨rfl, rfl, hn⟩
  · refine ⟨VP.refl s, ?_⟩
    rintro q ⟨⟩ _ h
    cases h

/-- Every result has the property. -/
def Ret {α : Type} (P : α → Prop) (m : R α) : Prop := ∀ s, Gives P (m s).1

theorem ret_pure {α : Type} {P : α → Prop} {a : α} (h : P a) : Ret P (pure a : R α) := by
  rintro s b ⟨⟩; exact h
theorem ret_throw {α : Type} {P : α → Prop} (e : Fault) : Ret P (throw e : R α) := by
  rintro s b h; cases h
theorem ret_die {α : Type} {P : α → Prop} (c : Int) : Ret P (die c : R α) := by
  rintro s b h; cases h
theorem ret_bind {α β : Type} {P : β → Prop} {m : R α} {k : α → R β} (h : ∀ a, Ret P (k a)) : Ret P (m >>= k) := by
  intro s
  rw [run_bind]
  rcases m s with ⟨e | a, s'⟩
  · rintro b h; cases h
  · exact h a s'
theorem ret_ite {α : Type} {P : α → Prop} {c : Prop} [Decidable c] {m k : R α} (h1 : Ret P m) (h2 : Ret P k) :
    Ret P (if c then m else k) := by split <;> assumption

macro "ret" : tactic => `(tactic|
  repeat' first
  | with_reducible exact ret_throw _
  | with_reducible exact ret_die _
  | with_reducible apply ret_pure
  | with_reducible apply ret_bind
  | with_reducible apply ret_ite
  | with_reducible intro _
  | split)

/-- The answers that are not votes. -/
def NotVote (r : Resp) : Prop := r.type ≠ .voteResp

theorem ret_dispatch (r : Req) (h : r.type ≠ .voteReq) : Ret NotVote (dispatch r) := by
  unfold dispatch handleExtended handleAppendEntries handleCliReq handleAddSrv handleRmSrv handleLogSync handleJoin
    handleLeave handleInstallSnapshot handlePrevoteReq
  ret
  all_goals first
    | (exfalso; exact h ‹_›)
    | (intro h; cases h)

theorem vp_dispatch (r : Req) (h : r.type ≠ .voteReq) (hj : r.type ≠ .joinReq) : Pres (VP nm) (dispatch r) := by
  unfold dispatch handleExtended
  pres vpo using vp_handleAppendEntries, vp_handleCliReq, vp_handleAddSrv, vp_handleRmSrv, vp_handleLogSync,
    vp_handleLeave, vp_handleInstallSnapshot, vp_handlePrevoteReq, vp_die
  all_goals first
    | (exfalso; exact h ‹_›)
    | (exfalso; exact hj ‹_›)

theorem vp_req (r : Req) (hj : r.type ≠ .joinReq) (hn' : nm → r.type = .voteReq → r.src ≠ -1) : Pres (VP nm) (Input.run (.req r)) := by
  show Pres (VP nm) (processReq r >>= fun resp => emit (.reply resp))
  unfold processReq
  by_cases h : r.type = .voteReq
  · have hd : dispatch r = handleVoteReq r := by unfold dispatch; rw [h]
    have hn : nm → r.src ≠ -1 := fun hm => hn' hm h
    intro s
    rw [hd, run_bind]
    have h1 : VP nm s ((hearTerm r >>= fun _ => handleVoteReq r) s).2 ∧
        Gives (Announced nm ((hearTerm r >>= fun _ => handleVoteReq r) s).2)
          ((hearTerm r >>= fun _ => handleVoteReq r) s).1 := by
      have h0 := vp_hearTerm (nm := nm) r s
      rw [run_bind]
      rcases ht : hearTerm r s with ⟨e | u, s1⟩
      · rw [ht] at h0
        exact ⟨h0, by rintro a h; cases h⟩
      · rw [ht] at h0
        exact ⟨VP.trans h0 (handleVoteReq_spec r hn s1).1, (handleVoteReq_spec r hn s1).2⟩
    rcases hr : (hearTerm r >>= fun _ => handleVoteReq r) s with ⟨e | q, s1⟩
    · rw [hr] at h1; exact h1.1
    · rw [hr] at h1
      have h2 := h1.2 q rfl
      refine VP.trans h1.1 ⟨rfl, [.reply q], rfl, .one ?_⟩
      by_cases hq : q.type = .voteResp ∧ q.accepted = true
      · obtain ⟨ha, hb, hc⟩ := h2 hq.1 hq.2
        exact .grant hq.1 hq.2 ha hb hc
      · exact .other hq
  · have h2 := ret_dispatch r h
    have hp : Pres (VP nm) (dispatch r >>= fun q => emit (.reply q)) := by
      intro s
      have h1 := vp_dispatch (nm := nm) r h hj s
      have h3 := h2 s
      rw [run_bind]
      rcases hr : dispatch r s with ⟨e | q, s1⟩
      · rw [hr] at h1; exact h1
      · rw [hr] at h1 h3
        exact VP.trans h1 (vp_emit (e := .reply q) (fun hq => h3 q rfl hq.1) s1)
    intro s
    have h0 := vp_hearTerm (nm := nm) r s
    rw [run_bind]
    rw [run_bind]
    rcases ht : hearTerm r s with ⟨e | u, s1⟩
    · rw [ht] at h0; exact h0
    · rw [ht] at h0
      refine VP.trans h0 ?_
      have := hp s1
      rw [run_bind] at this
      exact this

/-- Every input except an invitation to join moves term and vote along a path. -/
theorem vp_run (x : Input) (hj : x.isJoin = false) (hn : nm → x.named) : Pres (VP nm) x.run := by
  cases x with
  | req r => exact vp_req r (by intro h; have h' : (r.type == .joinReq) = false := hj; rw [h] at h'; cases h') hn
  | peerResp ty r => exact pres_bind vpo (vp_rpcResult _ _ _) fun _ => vp_handlePeerResp r
  | extResp p ty r => exact pres_bind vpo (vp_rpcResult _ _ _) fun _ => vp_handleExtResp r
  | peerErr r => exact vp_rpcResult _ _ _
  | extErr p r => exact pres_bind vpo (vp_rpcResult _ _ _) fun _ => vp_handleExtErr r
  | retry r => exact vp_retryReq r
  | electionTimeout => exact vp_handleElectionTimeout
  | hbTimeout id => exact vp_handleHbTimeout _
  | apply => exact vp_applyOne
  | snapDone q ok =>
    exact pres_ite (pres_bind vpo (vp_keepSnap q) fun _ => vp_onSnapshotCompleted q true) (vp_onSnapshotCompleted q false)
  | replicate d => exact pres_bind vpo (vp_replicateLog d) fun _ => pres_pure vpo _
  | tick n => exact vp_mod fun s => ⟨rfl, rfl, rfl, rfl⟩

/-! ## Histories -/

theorem VPath.prefix {id : Int} : ∀ {es es' : List Eff} {a c : Nat × Int}, VPath nm id a es c → es' <+: es →
    ∃ b, VPath nm id a es' b
  | _, [], a, _, _, _ => ⟨a, .nil⟩
  | _, e' :: es', _, _, h, hp => by
    cases h with
    | nil => simp at hp
    | cons h1 h2 =>
      rw [List.cons_prefix_cons] at hp
      obtain ⟨rfl, hp⟩ := hp
      obtain ⟨b, hb⟩ := VPath.prefix h2 hp
      exact ⟨b, .cons h1 hb⟩

theorem VStep.disk {id : Int} {d : Disk} {e : Eff} {b : Nat × Int} (h : VStep nm id (d.term, d.vote) e b) :
    ((d.after e).term, (d.after e).vote) = b := by
  generalize ha : (d.term, d.vote) = a at h
  cases h <;> first
    | rfl
    | (rename_i hn; cases e <;> first | exact ha | cases hn)
    | exact ha

theorem VPath.disk {id : Int} {es : List Eff} {a b : Nat × Int} (h : VPath nm id a es b) :
    ∀ {d : Disk}, (d.term, d.vote) = a → ((d.afterAll es).term, (d.afterAll es).vote) = b := by
  induction h with
  | nil => intro d h; exact h
  | cons h1 _ ih =>
    rintro d rfl
    exact ih h1.disk

/-- What has been announced is not contradicted by term and vote. -/
def Kept (tv : Nat × Int) (fx : List Eff) : Prop :=
  ∀ e ∈ fx, ∀ t c, e.vote? = some (t, c) → c ≠ -1 ∧ (t < tv.1 ∨ t = tv.1 ∧ tv.2 = c)

theorem VStep.kept {id : Int} (hid : id ≠ -1) {a b : Nat × Int} {e : Eff} (h : VStep True id a e b) {fx : List Eff}
    (hk : Kept a fx) : Kept b (fx ++ [e]) := by
  intro e' he'
  rcases List.mem_append.1 he' with h' | h'
  · intro t c hc
    obtain ⟨hne, ho⟩ := hk e' h' t c hc
    refine ⟨hne, ?_⟩
    cases h with
    | raise hlt => rcases ho with ho | ho
                   · exact .inl (Nat.lt_trans ho hlt)
                   · exact .inl (by rw [ho.1]; exact hlt)
    | save hv =>
      rcases ho with ho | ⟨h1, h2⟩
      · exact .inl ho
      · refine .inr ⟨h1, ?_⟩
        rcases hv with hv | hv
        · exact absurd (h2.symm.trans hv) hne
        · exact hv.trans h2
    | ask => exact ho
    | grant => exact ho
    | other => exact ho
  · rw [List.mem_singleton.1 h']
    intro t c hc
    cases h with
    | raise => cases hc
    | save => cases hc
    | ask ht htm hs =>
      rename_i r
      simp only [Eff.vote?, ht, if_true, Option.some.injEq, Prod.mk.injEq] at hc
      obtain ⟨rfl, rfl⟩ := hc
      exact ⟨by rw [hs]; exact hid, .inr ⟨htm, hs.symm⟩⟩
    | grant ht hacc htm hd hn =>
      rename_i r
      simp only [Eff.vote?, ht, hacc, and_self, if_true, Option.some.injEq, Prod.mk.injEq] at hc
      obtain ⟨rfl, rfl⟩ := hc
      exact ⟨by rw [hd]; exact hn trivial, .inr ⟨htm, hd.symm⟩⟩
    | other hn =>
      exfalso
      cases e with
      | send r => simp only [Eff.vote?, if_neg hn] at hc; cases hc
      | reply r => simp only [Eff.vote?, if_neg hn] at hc; cases hc
      | _ => cases hc

theorem VPath.kept {id : Int} (hid : id ≠ -1) {a b : Nat × Int} {es : List Eff} (h : VPath True id a es b) :
    ∀ {fx : List Eff}, Kept a fx → Kept b (fx ++ es) := by
  induction h with
  | nil => intro fx hk; simpa using hk
  | @cons a b c e es h1 _ ih =>
    intro fx hk
    have := ih (h1.kept hid hk)
    rwa [List.append_assoc] at this

theorem VStep.term_le {id : Int} {a b : Nat × Int} {e : Eff} (h : VStep nm id a e b) : a.1 ≤ b.1 := by
  cases h with
  | raise h => exact Nat.le_of_lt h
  | _ => exact Nat.le_refl _

theorem VPath.term_le {id : Int} {a b : Nat × Int} {es : List Eff} (h : VPath nm id a es b) : a.1 ≤ b.1 := by
  induction h with
  | nil => exact Nat.le_refl _
  | cons h1 _ ih => exact Nat.le_trans h1.term_le ih

/-- While a server runs, its term and vote are those it has saved. -/
def Node.Synced (c : Setup) (n : Node) : Prop :=
  ∀ s, n.up = some s → s.id = c.id ∧ s.term = n.disk.term ∧ s.vote = n.disk.vote

/-- One step of a node is a path from the saved term and vote to the saved term and vote. -/
theorem Node.Step.vpath {c : Setup} {n n' : Node} {x : Option Input} {es : List Eff} (hs : n.Synced c)
    (h : n.Step c x es n') (hj : ∀ y, x = some y → y.isJoin = false ∧ (nm → y.named)) :
    n'.Synced c ∧ VPath nm c.id (n.disk.term, n.disk.vote) es (n'.disk.term, n'.disk.vote) := by
  cases h with
  | @run d s s' x h =>
    obtain ⟨h1, h2, h3⟩ := hs s rfl
    obtain ⟨hi, fs, ht, hp⟩ := vp_run (nm := nm) x (hj x rfl).1 (hj x rfl).2 { s with trace := [] }
    rw [h] at hi ht hp
    simp only [List.nil_append] at ht
    simp only [h1, h2, h3] at hp hi
    have hd := hp.disk (d := d) rfl
    rw [ht]
    have hd1 := congrArg Prod.fst hd
    have hd2 := congrArg Prod.snd hd
    refine ⟨?_, hd ▸ hp⟩
    rintro s'' ⟨⟩
    exact ⟨hi, hd1.symm, hd2.symm⟩
  | @survive d s s' x h =>
    obtain ⟨h1, h2, h3⟩ := hs s rfl
    obtain ⟨hi, fs, ht, hp⟩ := vp_run (nm := nm) x (hj x rfl).1 (hj x rfl).2 { s with trace := [] }
    rw [h] at hi ht hp
    simp only [List.nil_append] at ht
    simp only [h1, h2, h3] at hp hi
    have hd := hp.disk (d := d) rfl
    rw [ht]
    have hd1 := congrArg Prod.fst hd
    have hd2 := congrArg Prod.snd hd
    refine ⟨?_, hd ▸ hp⟩
    rintro s'' ⟨⟩
    exact ⟨hi, hd1.symm, hd2.symm⟩
  | @crash d s x es h =>
    obtain ⟨h1, h2, h3⟩ := hs s rfl
    obtain ⟨hi, fs, ht, hp⟩ := vp_run (nm := nm) x (hj x rfl).1 (hj x rfl).2 { s with trace := [] }
    simp only [List.nil_append] at ht
    rw [ht] at h
    simp only [h1, h2, h3] at hp
    obtain ⟨b, hb⟩ := hp.prefix h
    have hd := hb.disk (d := d) rfl
    exact ⟨by rintro s'' ⟨⟩, hd ▸ hb⟩
  | boot => exact ⟨by rintro s ⟨⟩; exact ⟨rfl, rfl, rfl⟩, .nil⟩

end Cs.Raft
