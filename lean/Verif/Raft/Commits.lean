import Verif.Raft.Frame
import Verif.Raft.Spec

/-!
# Commit index, applied index and log of one server

Every input changes them along `CPath`.
-/

namespace Cs.Raft
open Cs

/-- Log, commit index (`quick_commit_idx_`) and applied index (`sm_commit_index_`). -/
structure CS where
  log : Log
  qc : Nat
  sm : Nat

/-- Their values in a state. -/
def Srv.cs (s : Srv) : CS := ⟨s.log, s.quickCommit, s.smCommit⟩

/-- What an effect does to the log. -/
def Eff.onLog (l : Log) : Eff → Option Log
  | .append e => some (l.append e)
  | .writeAt i e => some (l.replaceFrom i [e])
  | .applyPack i es => some (l.replaceFrom i es)
  | .compact i => some (l.compact i)
  | _ => none

/-- Effects that are not about these. -/
def Eff.Quiet : Eff → Prop
  | .append _ | .writeAt _ _ | .applyPack _ _ | .compact _ | .commit _ _ | .advance _ | .applySnp _ => False
  | _ => True

/-- What the state machine gets when the next entry is applied. -/
def CS.applied (a : CS) : List Eff :=
  match a.log.get? (a.sm + 1) with
  | some e => if e.isApp then [.commit (a.sm + 1) e] else []
  | none => []

/-- One change. `A`: entries can be applied, `J`: invitations to join are possible, `I`: snapshots can be installed. -/
inductive CStep (A J I : Prop) : CS → List Eff → CS → Prop
  | quiet {a : CS} {e : Eff} : e.Quiet → CStep A J I a [e] a
  | log {a : CS} {e : Eff} {l : Log} : e.onLog a.log = some l → CStep A J I a [e] { a with log := l }
  | advance {a : CS} {n : Nat} : a.qc < n → CStep A J I a [.advance n] { a with qc := n }
  | apply {a : CS} : A → a.sm < a.qc → a.sm < a.log.next - 1 → CStep A J I a a.applied { a with sm := a.sm + 1 }
  | snap {a : CS} {q : Snap} : I → a.sm < q.lastIdx → CStep A J I a [.applySnp q] a
  | install {a : CS} {n : Nat} : I → a.sm ≤ n → CStep A J I a [] { a with qc := n, sm := n }
  | join {a : CS} : J → CStep A J I a [] { a with qc := 0, sm := 0 }

/-- Several changes. -/
inductive CPath (A J I : Prop) : CS → List Eff → CS → Prop
  | nil {a : CS} : CPath A J I a [] a
  | cons {a b c : CS} {xs es : List Eff} : CStep A J I a xs b → CPath A J I b es c → CPath A J I a (xs ++ es) c

variable {A J I : Prop}

theorem CPath.append {a b c : CS} {xs ys : List Eff} (h1 : CPath A J I a xs b) (h2 : CPath A J I b ys c) :
    CPath A J I a (xs ++ ys) c := by
  induction h1 with
  | nil => exact h2
  | cons h _ ih => rw [List.append_assoc]; exact .cons h (ih h2)

theorem CPath.one {a b : CS} {e : Eff} (h : CStep A J I a [e] b) : CPath A J I a [e] b := .cons (es := []) h .nil

theorem CPath.all {a : CS} : ∀ {es : List Eff}, (∀ e ∈ es, e.Quiet) → CPath A J I a es a
  | [], _ => .nil
  | e :: _, h => .cons (xs := [e]) (.quiet (h e (by simp))) (CPath.all fun x hx => h x (by simp [hx]))

theorem CPath.sm_le {a b : CS} {es : List Eff} (h : CPath A J I a es b) (hJ : ¬J) : a.sm ≤ b.sm := by
  induction h with
  | nil => exact Nat.le_refl _
  | cons h _ ih =>
    refine Nat.le_trans ?_ ih
    cases h with
    | join j => exact absurd j hJ
    | install _ h => exact h
    | apply => exact Nat.le_succ _
    | _ => exact Nat.le_refl _

theorem CPath.qc_le {a b : CS} {es : List Eff} (h : CPath A J I a es b) (hJ : ¬J) (hI : ¬I) : a.qc ≤ b.qc := by
  induction h with
  | nil => exact Nat.le_refl _
  | cons h _ ih =>
    refine Nat.le_trans ?_ ih
    cases h with
    | join j => exact absurd j hJ
    | install i _ => exact absurd i hI
    | advance h => exact Nat.le_of_lt h
    | _ => exact Nat.le_refl _

/-- `Q` holds between `s` and the state after `m`. -/
def At {α : Type} (Q : Srv → Srv → Prop) (s : Srv) (m : R α) : Prop := Q s (m s).2

/-- Log, commit index and applied index move along a path. -/
def AP (A J I : Prop) (s s' : Srv) : Prop := ∃ es, s'.trace = s.trace ++ es ∧ CPath A J I s.cs es s'.cs

/-- Nothing is applied. -/
def SameSm (s s' : Srv) : Prop := s'.smCommit = s.smCommit

theorem AP.refl (s : Srv) : AP A J I s s := ⟨[], by simp, .nil⟩
theorem AP.trans {a b c : Srv} (h1 : AP A J I a b) (h2 : AP A J I b c) : AP A J I a c := by
  obtain ⟨e1, t1, p1⟩ := h1
  obtain ⟨e2, t2, p2⟩ := h2
  exact ⟨e1 ++ e2, by rw [t2, t1, List.append_assoc], p1.append p2⟩
theorem apo : PO (AP A J I) := ⟨AP.refl, AP.trans⟩

theorem ap_quiet {s s' : Srv} (h1 : s'.log = s.log) (h2 : s'.quickCommit = s.quickCommit) (h3 : s'.smCommit = s.smCommit)
    (h4 : s'.trace = s.trace) : AP A J I s s' :=
  ⟨[], by rw [h4]; simp, by unfold Srv.cs; rw [h1, h2, h3]; exact .nil⟩

theorem ap_mod {f : Srv → Srv}
    (h : ∀ s, (f s).log = s.log ∧ (f s).quickCommit = s.quickCommit ∧ (f s).smCommit = s.smCommit ∧ (f s).trace = s.trace) :
    Pres (AP A J I) (modify f : R PUnit) := fun s => ap_quiet (h s).1 (h s).2.1 (h s).2.2.1 (h s).2.2.2

theorem ap_emit {e : Eff} (h : e.Quiet) : Pres (AP A J I) (emit e) := fun _ => ⟨[e], rfl, .one (.quiet h)⟩

theorem applied_none {s : Srv} (h : s.log.get? (s.smCommit + 1) = none) : s.cs.applied = [] := by
  unfold CS.applied Srv.cs; simp only []; rw [h]
theorem applied_app {s : Srv} {e : Entry} (h : s.log.get? (s.smCommit + 1) = some e) (ha : e.isApp = true) :
    s.cs.applied = [.commit (s.smCommit + 1) e] := by
  unfold CS.applied Srv.cs; simp only []; rw [h]; simp only []; rw [if_pos ha]
theorem applied_other {s : Srv} {e : Entry} (h : s.log.get? (s.smCommit + 1) = some e) (ha : e.isApp = false) :
    s.cs.applied = [] := by
  unfold CS.applied Srv.cs; simp only []; rw [h]; simp only []; rw [ha]; rfl

theorem ap_die {α : Type} (c : Int) : Pres (AP A J I) (die c : R α) := by
  unfold die
  pres apo using ap_emit
  trivial

theorem ap_saveState : Pres (AP A J I) saveState := fun s => ⟨[.saveState s.term s.vote], rfl, .one (.quiet trivial)⟩

theorem ap_modPeer (r : PeerRef) (f : Peer → Peer) : Pres (AP A J I) (modPeer r f) := by
  intro s
  cases r <;> exact ap_quiet rfl rfl rfl rfl

theorem frame_ap {s s' : Srv} {ty : MsgType → Prop} (h : Frame ty s s') : AP A J I s s' := by
  obtain ⟨p, j, es, rfl, _, _, hes⟩ := h
  refine ⟨es, rfl, CPath.all ?_⟩
  intro e he
  rcases hes e he with rfl | ⟨r, rfl, _, _⟩ <;> trivial

theorem ap_of_frame {α : Type} {ty : MsgType → Prop} {m : R α} (h : Pres (Frame ty) m) : Pres (AP A J I) m := fun s =>
  frame_ap (h s)

theorem ap_requestAppendTo (id : Int) : Pres (AP A J I) (requestAppendTo id) := ap_of_frame (requestAppendTo_frame id)
theorem ap_requestAppend (r : PeerRef) : Pres (AP A J I) (requestAppend r) := ap_of_frame (requestAppend_frame r)
theorem ap_commitNotify (id : Int) : Pres (AP A J I) (commitNotify id) := ap_of_frame (commitNotify_frame id)
theorem ap_leaderPeer (id : Int) : Pres (AP A J I) (leaderPeer id) := ap_of_frame (leaderPeer_frame id)
theorem ap_getPeer (r : PeerRef) : Pres (AP A J I) (getPeer r) := ap_of_frame (getPeer_frame isRepl r)
theorem ap_createSync (r : PeerRef) (i t c : Nat) : Pres (AP A J I) (createSyncSnapshotReq r i t c) :=
  ap_of_frame fun s => (createSync_frame isRepl r i t c s).1
theorem ap_askVote (ty : MsgType) (h : isPoll ty) (id : Int) : Pres (AP A J I) (askVote ty id) :=
  ap_of_frame (askVote_frame ty h id)
theorem ap_prevote (id : Int) : Pres (AP A J I) (askVote .prevoteReq id) := ap_askVote _ (.inr rfl) id
theorem ap_voteReq (id : Int) : Pres (AP A J I) (askVote .voteReq id) := ap_askVote _ (.inl rfl) id
theorem ap_peerIds : Pres (AP A J I) peerIds := fun s => AP.refl s
theorem ap_termForLog (i : Nat) : Pres (AP A J I) (termForLog i) := by
  unfold termForLog termAt
  pres apo using ap_die
theorem ap_termAt (i : Nat) : Pres (AP A J I) (termAt i) := by
  unfold termAt
  pres apo using ap_die
theorem ap_entryAt (i : Nat) : Pres (AP A J I) (entryAt i) := by
  unfold entryAt
  pres apo using ap_die
theorem ap_entryToApply (i : Nat) : Pres (AP A J I) (entryToApply i) := by
  unfold entryToApply
  pres apo using ap_die
theorem ap_restart : Pres (AP A J I) restartElectionTimer := by
  unfold restartElectionTimer
  pres apo using ap_mod
  exact ⟨rfl, rfl, rfl, rfl⟩
theorem ap_stop : Pres (AP A J I) stopElectionTimer := by
  unfold stopElectionTimer
  pres apo using ap_mod
  exact ⟨rfl, rfl, rfl, rfl⟩
theorem ap_enableHb (r : PeerRef) : Pres (AP A J I) (enableHb r) := by
  unfold enableHb
  pres apo using ap_modPeer
theorem ap_becomeFollower : Pres (AP A J I) becomeFollower := by
  unfold becomeFollower
  pres apo using ap_mod, ap_restart, ap_emit
  all_goals first | trivial | exact ⟨rfl, rfl, rfl, rfl⟩
theorem ap_commit (n : Nat) : Pres (AP A J I) (commit n) := by
  intro s
  unfold commit
  rw [bind_get]
  by_cases h : s.quickCommit < n
  · rw [if_pos h, bind_modify, bind_emit]
    refine AP.trans (b := { s with quickCommit := n, trace := s.trace ++ [.advance n] })
      ⟨[.advance n], rfl, .one (.advance h)⟩ ?_
    have : Pres (AP A J I) (if s.role = .leader then do
        let ids ← peerIds
        forEach commitNotify ids
      else pure () : R Unit) := by
      pres apo using ap_peerIds, ap_commitNotify
    exact this _
  · rw [if_neg h]; exact AP.refl s
theorem ap_requestAppendAll : Pres (AP A J I) requestAppendAll := by
  unfold requestAppendAll
  pres apo using ap_commit, ap_peerIds, ap_requestAppendTo
theorem ap_logAppend (e : Entry) : Pres (AP A J I) (logAppend e) := fun _ => ⟨[.append e], rfl, .one (.log rfl)⟩
theorem ap_logWriteAt (i : Nat) (e : Entry) : Pres (AP A J I) (logWriteAt i e) := fun _ =>
  ⟨[.writeAt i e], rfl, .one (.log rfl)⟩
theorem ap_logApplyPack (i : Nat) (es : List Entry) : Pres (AP A J I) (logApplyPack i es) := by
  intro s
  unfold logApplyPack
  rw [bind_get]
  by_cases h : es = []
  · rw [if_pos h]; exact AP.refl s
  rw [if_neg h]
  by_cases h2 : i < s.log.start ∨ s.log.next < i
  · rw [if_pos h2]; exact AP.refl s
  · rw [if_neg h2]; exact ⟨[.applyPack i es], rfl, .one (.log rfl)⟩
theorem ap_logCompact (i : Nat) : Pres (AP A J I) (logCompact i) := by
  intro s
  unfold logCompact
  rw [bind_get]
  by_cases h : i < s.log.start
  · rw [if_pos h]; exact AP.refl s
  rw [if_neg h]
  by_cases h2 : s.env.compactOk i = true
  · rw [if_pos h2]; exact ⟨[.compact i], rfl, .one (.log rfl)⟩
  · rw [if_neg h2]; exact AP.refl s
theorem ap_initialConf : Pres (AP A J I) initialConf := by
  unfold initialConf
  pres apo using ap_mod, ap_logAppend
  all_goals exact ⟨rfl, rfl, rfl, rfl⟩
theorem ap_becomeLeader : Pres (AP A J I) becomeLeader := by
  unfold becomeLeader
  pres apo using ap_mod, ap_emit, ap_stop, ap_peerIds, ap_leaderPeer, ap_initialConf, ap_requestAppendAll
  all_goals first | trivial | exact ⟨rfl, rfl, rfl, rfl⟩

theorem ap_updateTerm (t : Nat) : Pres (AP A J I) (updateTerm t) := by
  unfold updateTerm
  pres apo using ap_mod, ap_saveState, ap_becomeFollower
  all_goals exact ⟨rfl, rfl, rfl, rfl⟩
theorem ap_voteSelf : Pres (AP A J I) voteSelf := by
  unfold voteSelf
  pres apo using ap_mod, ap_saveState
  all_goals exact ⟨rfl, rfl, rfl, rfl⟩
theorem ap_askForVotes : Pres (AP A J I) askForVotes := by
  unfold askForVotes
  pres apo using ap_mod, ap_becomeLeader, ap_peerIds, ap_voteReq
  all_goals exact ⟨rfl, rfl, rfl, rfl⟩
theorem ap_requestVote : Pres (AP A J I) requestVote := by
  unfold requestVote
  pres apo using ap_voteSelf, ap_askForVotes
theorem ap_rearm : Pres (AP A J I) rearm := by
  unfold rearm
  pres apo using ap_restart

theorem ap_startTerm : Pres (AP A J I) startTerm := by
  unfold startTerm
  pres apo using ap_mod, ap_saveState
  all_goals exact ⟨rfl, rfl, rfl, rfl⟩
theorem ap_becomeCandidate : Pres (AP A J I) becomeCandidate := by
  unfold becomeCandidate
  pres apo using ap_startTerm, ap_requestVote, ap_rearm
theorem ap_requestPrevote : Pres (AP A J I) requestPrevote := by
  unfold requestPrevote
  pres apo using ap_becomeCandidate, ap_mod, ap_peerIds, ap_prevote
  all_goals exact ⟨rfl, rfl, rfl, rfl⟩
theorem ap_leaveConfig : Pres (AP A J I) leaveConfig := by
  unfold leaveConfig
  pres apo using ap_mod, ap_emit
  all_goals first | trivial | exact ⟨rfl, rfl, rfl, rfl⟩
theorem ap_handleElectionTimeout : Pres (AP A J I) handleElectionTimeout := by
  unfold handleElectionTimeout
  pres apo using ap_mod, ap_leaveConfig, ap_die, ap_restart, ap_requestPrevote, ap_becomeCandidate
  all_goals exact ⟨rfl, rfl, rfl, rfl⟩
theorem ap_handleHbTimeout (r : PeerRef) : Pres (AP A J I) (handleHbTimeout r) := by
  unfold handleHbTimeout
  pres apo using ap_modPeer, ap_requestAppend

/-! ## Requests -/

theorem ap_skipSame : ∀ (es : List Entry) (i : Nat), Pres (AP A J I) (skipSame i es)
  | [], _ => pres_pure apo _
  | e :: es, i => by
    have ih := ap_skipSame es
    unfold skipSame
    pres apo using ap_termAt, ih
theorem ap_rollbackOld (i : Nat) : Pres (AP A J I) (rollbackOld i) := by
  unfold rollbackOld
  pres apo using ap_entryAt, ap_emit, ap_mod
  all_goals first | trivial | exact ⟨rfl, rfl, rfl, rfl⟩
theorem ap_noteNew (i : Nat) (e : Entry) : Pres (AP A J I) (noteNew i e) := by
  unfold noteNew
  pres apo using ap_emit, ap_mod
  all_goals first | trivial | exact ⟨rfl, rfl, rfl, rfl⟩
theorem ap_overwriteOld : ∀ (es : List Entry) (i : Nat), Pres (AP A J I) (overwriteOld i es)
  | [], _ => pres_pure apo _
  | e :: es, i => by
    have ih := ap_overwriteOld es
    unfold overwriteOld
    pres apo using ap_rollbackOld, ap_logWriteAt, ap_noteNew, ih
theorem ap_appendNew : ∀ (es : List Entry), Pres (AP A J I) (appendNew es)
  | [] => pres_pure apo _
  | e :: es => by
    have ih := ap_appendNew es
    unfold appendNew
    pres apo using ap_logAppend, ap_noteNew, ih
theorem ap_storeEntries (r : Req) : Pres (AP A J I) (storeEntries r) := by
  unfold storeEntries
  pres apo using ap_skipSame, ap_overwriteOld, ap_appendNew
theorem ap_hearLeader (r : Req) : Pres (AP A J I) (hearLeader r) := by
  unfold hearLeader
  pres apo using ap_becomeFollower, ap_die, ap_restart
theorem ap_logOkay (r : Req) : Pres (AP A J I) (logOkay r) := by
  unfold logOkay
  pres apo using ap_termForLog
theorem ap_handleAppendEntries (r : Req) : Pres (AP A J I) (handleAppendEntries r) := by
  unfold handleAppendEntries
  pres apo using ap_hearLeader, ap_logOkay, ap_storeEntries, ap_mod, ap_commit
  all_goals exact ⟨rfl, rfl, rfl, rfl⟩
theorem ap_handleVoteReq (r : Req) : Pres (AP A J I) (handleVoteReq r) := by
  unfold handleVoteReq
  pres apo using ap_mod, ap_saveState
  all_goals exact ⟨rfl, rfl, rfl, rfl⟩
theorem ap_handlePrevoteReq (r : Req) : Pres (AP A J I) (handlePrevoteReq r) := by
  unfold handlePrevoteReq
  pres apo using ap_mod
theorem ap_isLeader : Pres (AP A J I) isLeader := by
  unfold isLeader
  pres apo using ap_mod
  all_goals exact ⟨rfl, rfl, rfl, rfl⟩
theorem ap_appendClient : ∀ (es : List Entry), Pres (AP A J I) (appendClient es)
  | [] => pres_pure apo _
  | e :: es => by
    have ih := ap_appendClient es
    unfold appendClient
    pres apo using ap_logAppend, ap_emit, ih
    all_goals trivial
theorem ap_handleCliReq (r : Req) : Pres (AP A J I) (handleCliReq r) := by
  unfold handleCliReq
  pres apo using ap_isLeader, ap_appendClient, ap_requestAppendAll
theorem ap_addPeer (c : SrvCfg) : Pres (AP A J I) (addPeer c) := by
  unfold addPeer
  pres apo using ap_mod, ap_enableHb, ap_modPeer
  all_goals first | exact ⟨rfl, rfl, rfl, rfl⟩ | (split <;> exact ⟨rfl, rfl, rfl, rfl⟩)
theorem ap_removePeer (c : Config) (i : Int) : Pres (AP A J I) (removePeer c i) := by
  unfold removePeer
  pres apo using ap_mod, ap_emit, ap_die
  all_goals first | trivial | exact ⟨rfl, rfl, rfl, rfl⟩
theorem ap_reconfigure (c : Config) : Pres (AP A J I) (reconfigure c) := by
  unfold reconfigure
  pres apo using ap_addPeer, ap_removePeer, ap_mod
  all_goals exact ⟨rfl, rfl, rfl, rfl⟩
theorem SameSm.po : PO SameSm := ⟨fun _ => rfl, fun h1 h2 => Eq.trans h2 h1⟩
theorem sm_mod {f : Srv → Srv} (h : ∀ s, (f s).smCommit = s.smCommit) : Pres SameSm (modify f : R PUnit) := h
theorem sm_emit (e : Eff) : Pres SameSm (emit e) := fun _ => rfl
theorem sm_die {α : Type} (c : Int) : Pres SameSm (die c : R α) := fun _ => rfl
theorem sm_modPeer (r : PeerRef) (f : Peer → Peer) : Pres SameSm (modPeer r f) := by
  intro s
  cases r <;> rfl
theorem sm_enableHb (r : PeerRef) : Pres SameSm (enableHb r) := fun s => sm_modPeer r _ s
theorem sm_addPeer (c : SrvCfg) : Pres SameSm (addPeer c) := by
  unfold addPeer
  pres SameSm.po using sm_mod, sm_enableHb, sm_modPeer
  all_goals first | rfl | (split <;> rfl)
theorem sm_removePeer (c : Config) (i : Int) : Pres SameSm (removePeer c i) := by
  unfold removePeer
  pres SameSm.po using sm_mod, sm_emit, sm_die
  all_goals rfl
theorem sm_reconfigure (c : Config) : Pres SameSm (reconfigure c) := by
  unfold reconfigure
  pres SameSm.po using sm_addPeer, sm_removePeer, sm_mod
  all_goals rfl
theorem sm_logCompact (i : Nat) : Pres SameSm (logCompact i) := by
  unfold logCompact
  pres SameSm.po using sm_mod, sm_emit
  all_goals rfl

/-- Lines 386-395 of `handle_snapshot_sync_req`, the end of `installSnapshot`. -/
theorem ap_installed (hI : I) (n : Nat) (s : Srv) (h : s.smCommit ≤ n) :
    AP A J I s { s with smCommit := n, quickCommit := n } := ⟨[], by simp, CPath.cons (es := []) (.install hI h) .nil⟩

theorem ap_installEnd (hI : I) (q : Snap) (s : Srv) (h : s.smCommit ≤ q.lastIdx) :
    AP A J I s ((do
        let s ← get
        emit (.saveConfig s.config)
        modify fun s => { s with smCommit := q.lastIdx, quickCommit := q.lastIdx }
        saveState
        modify fun s => { s with lastSnap := some { q with config := s.config } }
        restartElectionTimer
        pure true : R Bool) s).2 := by
  rw [bind_get, bind_emit, bind_modify]
  have h0 : AP A J I s { s with trace := s.trace ++ [.saveConfig s.config] } := ap_emit (by trivial) s
  have h1 := h0.trans (ap_installed hI q.lastIdx _ h)
  refine h1.trans ?_
  have h2 : Pres (AP A J I) (do
        saveState
        modify fun s => { s with lastSnap := some { q with config := s.config } }
        restartElectionTimer
        pure true : R Bool) := by
    pres apo using ap_saveState, ap_mod, ap_restart
    all_goals exact ⟨rfl, rfl, rfl, rfl⟩
  exact h2 _

theorem ap_installSnapshot (hI : I) (q : Snap) (s : Srv) (h : s.smCommit < q.lastIdx) :
    AP A J I s (installSnapshot q s).2 := by
  unfold installSnapshot
  rw [bind_get]
  split
  · exact ap_die _ s
  have h1 := ap_logCompact (A := A) (J := J) (I := I) q.lastIdx s
  have k1 := sm_logCompact q.lastIdx s
  rw [run_bind]
  rcases hr : logCompact q.lastIdx s with ⟨e | b, s1⟩
  · rw [hr] at h1; exact h1
  rw [hr] at h1 k1
  cases b with
  | false => exact h1
  | true =>
  refine h1.trans ?_
  have k1' : s1.smCommit < q.lastIdx := by rw [show s1.smCommit = s.smCommit from k1]; exact h
  clear hr h1 k1
  simp only [if_true]
  rw [show ∀ k : Unit → R Bool, (stopElectionTimer >>= k) s1 = k ⟨⟩ { s1 with armed := false } from fun _ => rfl, bind_emit]
  have h2 : AP A J I s1 { s1 with armed := false, trace := s1.trace ++ [.applySnp q] } :=
    ⟨[.applySnp q], rfl, .one (.snap hI k1')⟩
  have k2 : ({ s1 with armed := false, trace := s1.trace ++ [.applySnp q] } : Srv).smCommit ≤ q.lastIdx := Nat.le_of_lt k1'
  refine h2.trans ?_
  generalize ({ s1 with armed := false, trace := s1.trace ++ [.applySnp q] } : Srv) = s2 at h2 k2 ⊢
  split
  · exact ap_die _ s2
  rw [bind_modify]
  have h3 : AP A J I s2 { s2 with smSnap := some q } := ap_quiet rfl rfl rfl rfl
  have k3 : ({ s2 with smSnap := some q } : Srv).smCommit ≤ q.lastIdx := k2
  refine h3.trans ?_
  generalize ({ s2 with smSnap := some q } : Srv) = s3 at h3 k3 ⊢
  have h4 := ap_reconfigure (A := A) (J := J) (I := I) q.config s3
  have k4 := sm_reconfigure q.config s3
  rw [run_bind]
  rcases hr : reconfigure q.config s3 with ⟨e | b, s4⟩
  · rw [hr] at h4; exact h4
  rw [hr] at h4 k4
  exact h4.trans (ap_installEnd hI q s4 (by rw [show s4.smCommit = s3.smCommit from k4]; exact k3))
theorem ap_handleSnapshotSync (hI : I) (q : SnpSync) (s : Srv) (h : s.smCommit < q.snap.lastIdx) :
    AP A J I s (handleSnapshotSync q s).2 := by
  unfold handleSnapshotSync
  rw [bind_emit]
  have h1 : AP A J I s { s with trace := s.trace ++ [.saveSnpData q.snap q.offset q.data] } :=
    ap_emit (by trivial) s
  refine h1.trans ?_
  split
  · rw [bind_get]
    split
    · exact ap_die _ _
    · exact ap_installSnapshot hI q.snap _ h
  · exact AP.refl _
theorem ap_hearSnapshotLeader (r : Req) : Pres (AP A J I) (hearSnapshotLeader r) := by
  unfold hearSnapshotLeader
  pres apo using ap_becomeFollower, ap_die, ap_restart
theorem ap_handleInstallSnapshot (hI : I) (r : Req) : Pres (AP A J I) (handleInstallSnapshot r) := by
  unfold handleInstallSnapshot
  refine pres_bind apo (ap_hearSnapshotLeader r) fun _ => pres_getBind fun s => ?_
  split
  · exact AP.refl s
  show At (AP A J I) s _
  split
  · rename_i q _ _
    unfold At
    split
    · exact AP.refl s
    · rename_i h
      have h1 := ap_handleSnapshotSync (A := A) (J := J) hI q s (by omega)
      rw [run_bind]
      rcases hr : handleSnapshotSync q s with ⟨e | b, s1⟩
      · rw [hr] at h1; exact h1
      · rw [hr] at h1
        cases b <;> exact h1
  · exact AP.refl s
theorem ap_handleRmSrv (r : Req) : Pres (AP A J I) (handleRmSrv r) := by
  unfold handleRmSrv
  pres apo using ap_emit
  all_goals trivial
theorem ap_inviteSrv : Pres (AP A J I) inviteSrv := by
  unfold inviteSrv
  pres apo using ap_getPeer, ap_emit
  all_goals trivial
theorem ap_handleAddSrv (r : Req) : Pres (AP A J I) (handleAddSrv r) := by
  unfold handleAddSrv
  pres apo using ap_mod, ap_inviteSrv
  all_goals exact ⟨rfl, rfl, rfl, rfl⟩
theorem ap_handleLogSync (r : Req) : Pres (AP A J I) (handleLogSync r) := by
  unfold handleLogSync
  pres apo using ap_logApplyPack, ap_commit
theorem ap_handleJoin (hJ : J) (r : Req) : Pres (AP A J I) (handleJoin r) := by
  unfold handleJoin
  refine pres_getBind fun s => ?_
  show At (AP A J I) s _
  split
  · rename_i c _
    unfold At
    split
    · exact AP.refl s
    · rw [bind_modify, bind_modify]
      have h1 : AP A J I s { s with
          catchingUp := true, role := .follower, leader := r.src, smCommit := 0, quickCommit := 0 } :=
        ⟨[], by simp, CPath.cons (es := []) (.join hJ) .nil⟩
      refine h1.trans ?_
      have h2 : Pres (AP A J I) (do
          modify fun s => { s with vote := -1, term := r.term }
          saveState
          reconfigure c
          let s' ← get
          pure {
            type := .joinResp, term := s.term, src := s.id, dst := r.src, nextIdx := s'.log.next, accepted := true } :
          R Resp) := by
        pres apo using ap_mod, ap_saveState, ap_reconfigure
        all_goals exact ⟨rfl, rfl, rfl, rfl⟩
      exact h2 _
  · exact AP.refl s
theorem ap_handleLeave (r : Req) : Pres (AP A J I) (handleLeave r) := by
  unfold handleLeave
  pres apo using ap_mod
  all_goals exact ⟨rfl, rfl, rfl, rfl⟩
theorem ap_hearTerm (r : Req) : Pres (AP A J I) (hearTerm r) := by
  unfold hearTerm
  pres apo using ap_updateTerm, ap_mod
  all_goals exact ⟨rfl, rfl, rfl, rfl⟩

/-! ## Responses -/

theorem ap_acceptedResp (r : Resp) : Pres (AP A J I) (acceptedResp r) := by
  unfold acceptedResp
  pres apo using ap_modPeer, ap_commit, ap_getPeer
theorem ap_refusedResp (r : Resp) : Pres (AP A J I) (refusedResp r) := by
  unfold refusedResp
  pres apo using ap_modPeer
theorem ap_handleAppendResp (r : Resp) : Pres (AP A J I) (handleAppendResp r) := by
  unfold handleAppendResp
  pres apo using ap_acceptedResp, ap_refusedResp, ap_requestAppendTo
theorem ap_acceptedSnpResp (r : Resp) : Pres (AP A J I) (acceptedSnpResp r) := by
  unfold acceptedSnpResp
  pres apo using ap_modPeer, ap_getPeer
theorem ap_handleSnpResp (r : Resp) : Pres (AP A J I) (handleSnpResp r) := by
  unfold handleSnpResp
  pres apo using ap_acceptedSnpResp, ap_requestAppendTo
theorem ap_handleVotingResp (r : Resp) : Pres (AP A J I) (handleVotingResp r) := by
  unfold handleVotingResp
  pres apo using ap_mod, ap_becomeLeader
  all_goals exact ⟨rfl, rfl, rfl, rfl⟩
theorem ap_dispatchResp (r : Resp) : Pres (AP A J I) (dispatchResp r) := by
  unfold dispatchResp
  pres apo using ap_handleVotingResp, ap_handleAppendResp, ap_handleSnpResp, ap_die
theorem ap_handlePeerResp (r : Resp) : Pres (AP A J I) (handlePeerResp r) := by
  unfold handlePeerResp
  pres apo using ap_modPeer, ap_updateTerm, ap_dispatchResp
theorem ap_handlePrevoteResp (r : Resp) : Pres (AP A J I) (handlePrevoteResp r) := by
  unfold handlePrevoteResp
  pres apo using ap_mod, ap_becomeCandidate, ap_restart
  all_goals exact ⟨rfl, rfl, rfl, rfl⟩
theorem ap_addToConfig : Pres (AP A J I) addToConfig := by
  unfold addToConfig
  pres apo using ap_logAppend, ap_mod, ap_requestAppendAll
  all_goals exact ⟨rfl, rfl, rfl, rfl⟩
theorem ap_sendSync (r : PeerRef) (i t c : Nat) :
    Pres (AP A J I) (createSyncSnapshotReq r i t c >>= fun q => emit (.send q)) := by
  intro s
  have h1 := ap_createSync (A := A) (J := J) (I := I) r i t c s
  rw [run_bind]
  rcases hr : createSyncSnapshotReq r i t c s with ⟨e | q, s2⟩
  · rw [hr] at h1; exact h1
  · rw [hr] at h1
    exact AP.trans h1 (ap_emit (by trivial) s2)
    all_goals trivial
theorem ap_syncLogToNewSrv (i : Nat) : Pres (AP A J I) (syncLogToNewSrv i) := by
  unfold syncLogToNewSrv
  pres apo using ap_addToConfig, ap_sendSync, ap_getPeer, ap_emit
  all_goals trivial
theorem ap_rmSrvFromCluster (i : Int) : Pres (AP A J I) (rmSrvFromCluster i) := by
  unfold rmSrvFromCluster
  pres apo using ap_logAppend, ap_mod, ap_requestAppendAll
  all_goals exact ⟨rfl, rfl, rfl, rfl⟩
theorem ap_handleExtSnpResp (r : Resp) : Pres (AP A J I) (handleExtSnpResp r) := by
  unfold handleExtSnpResp
  pres apo using ap_die, ap_modPeer, ap_getPeer, ap_syncLogToNewSrv
theorem ap_handleExtResp (r : Resp) : Pres (AP A J I) (handleExtResp r) := by
  unfold handleExtResp
  pres apo using ap_die, ap_modPeer, ap_syncLogToNewSrv, ap_rmSrvFromCluster, ap_handleExtSnpResp, ap_handlePrevoteResp
theorem ap_forceRemove (i : Int) : Pres (AP A J I) (forceRemove i) := by
  unfold forceRemove
  pres apo using ap_mod, ap_rmSrvFromCluster
  all_goals exact ⟨rfl, rfl, rfl, rfl⟩
theorem ap_handleExtErr (r : Req) : Pres (AP A J I) (handleExtErr r) := by
  unfold handleExtErr
  pres apo using ap_mod, ap_forceRemove, ap_modPeer
  all_goals exact ⟨rfl, rfl, rfl, rfl⟩
theorem ap_rpcResult (p : PeerRef) (ty : MsgType) (ok : Bool) : Pres (AP A J I) (rpcResult p ty ok) := by
  unfold rpcResult
  pres apo using ap_modPeer
theorem ap_retryReq (r : Req) : Pres (AP A J I) (retryReq r) := by
  unfold retryReq
  pres apo using ap_emit
  all_goals trivial

/-! ## Commit thread and application -/

theorem ap_commitConf (c : Config) : Pres (AP A J I) (commitConf c) := by
  unfold commitConf
  pres apo using ap_emit, ap_mod, ap_reconfigure
  all_goals first | trivial | exact ⟨rfl, rfl, rfl, rfl⟩
theorem ap_findConf (i : Nat) : ∀ (n : Nat) (c : Config), Pres (AP A J I) (findConf i n c)
  | 0, _ => pres_throw apo _
  | n + 1, c => by
    have ih := ap_findConf i n
    unfold findConf
    pres apo using ap_entryAt, ih
theorem ap_confForSnap (i : Nat) : Pres (AP A J I) (confForSnap i) := by
  unfold confForSnap
  pres apo using ap_findConf, ap_die
theorem ap_startSnapshot (i : Nat) : Pres (AP A J I) (startSnapshot i) := by
  unfold startSnapshot
  pres apo using ap_confForSnap, ap_termAt, ap_emit
  all_goals trivial
theorem ap_snapshotAndCompact (i : Nat) : Pres (AP A J I) (snapshotAndCompact i) := by
  unfold snapshotAndCompact
  pres apo using ap_mod, ap_startSnapshot
  all_goals exact ⟨rfl, rfl, rfl, rfl⟩
theorem ap_keepSnap (q : Snap) : Pres (AP A J I) (keepSnap q) := by
  unfold keepSnap
  pres apo using ap_mod, ap_emit
  all_goals first | trivial | exact ⟨rfl, rfl, rfl, rfl⟩
theorem ap_onSnapshotCompleted (q : Snap) (ok : Bool) : Pres (AP A J I) (onSnapshotCompleted q ok) := by
  unfold onSnapshotCompleted
  pres apo using ap_mod, ap_logCompact
  all_goals exact ⟨rfl, rfl, rfl, rfl⟩
/-- The entry is counted as applied and, if it is a command, handed to the state machine. -/
theorem ap_applyOne (hA : A) : Pres (AP A J I) applyOne := by
  unfold applyOne
  refine pres_getBind fun s => ?_
  by_cases h : s.canApply = true
  · rw [if_pos h, bind_modify]
    have hc : s.smCommit < s.quickCommit ∧ s.smCommit < s.log.next - 1 := by
      unfold Srv.canApply at h
      simpa using h
    have step := CStep.apply (A := A) (J := J) (I := I) (a := s.cs) hA hc.1 hc.2
    rcases he : s.log.get? (s.smCommit + 1) with _ | e
    · rw [applied_none he] at step
      refine AP.trans (b := { s with smCommit := s.smCommit + 1 }) ⟨[], by simp, .cons (es := []) step .nil⟩ ?_
      rcases hn : entryToApply (s.smCommit + 1) { s with smCommit := s.smCommit + 1 } with ⟨a | a, s2⟩
      · rw [run_bind_err hn]
        have := ap_entryToApply (A := A) (J := J) (I := I) (s.smCommit + 1) { s with smCommit := s.smCommit + 1 }
        rw [hn] at this
        exact this
      · unfold entryToApply at hn
        rw [bind_get] at hn
        have hn : (match s.log.get? (s.smCommit + 1) with
          | some e => pure e
          | none => if s.smCommit + 1 < s.log.start then die (-1) else throw .ub : R Entry)
            { s with smCommit := s.smCommit + 1 } = (.ok a, s2) := hn
        rw [he] at hn
        have hn : (if s.smCommit + 1 < s.log.start then die (-1) else throw .ub : R Entry)
            { s with smCommit := s.smCommit + 1 } = (.ok a, s2) := hn
        by_cases h1 : s.smCommit + 1 < s.log.start
        · rw [if_pos h1] at hn; cases hn
        · rw [if_neg h1] at hn; cases hn
    rw [run_bind_ok (show entryToApply (s.smCommit + 1) { s with smCommit := s.smCommit + 1 } = (.ok e, _) by
        unfold entryToApply; rw [bind_get, he]; rfl)]
    have hs := ap_snapshotAndCompact (A := A) (J := J) (I := I) (s.smCommit + 1)
    by_cases ha : e.isApp = true
    · rw [applied_app he ha] at step
      obtain ⟨t, v⟩ := e
      cases v with
      | app d =>
        show AP A J I s ((emit (.commit (s.smCommit + 1) ⟨t, .app d⟩) >>= fun _ => snapshotAndCompact (s.smCommit + 1)) _).2
        rw [bind_emit]
        refine AP.trans (b := { s with
            smCommit := s.smCommit + 1, trace := s.trace ++ [.commit (s.smCommit + 1) ⟨t, .app d⟩] }) ?_ (hs _)
        exact ⟨_, rfl, .cons (es := []) step .nil⟩
      | _ => cases ha
    · have ha' : e.isApp = false := by simpa using ha
      rw [applied_other he ha'] at step
      refine AP.trans (b := { s with smCommit := s.smCommit + 1 }) ⟨[], by simp, .cons (es := []) step .nil⟩ ?_
      refine pres_bind apo ?_ (fun _ => hs) _
      unfold applyEntry
      obtain ⟨t, v⟩ := e
      cases v with
      | app d => cases ha'
      | conf c => exact ap_commitConf c
      | _ => exact pres_pure apo _
  · rw [if_neg h]; exact AP.refl s
theorem ap_replicateLog (d : Nat) : Pres (AP A J I) (replicateLog d) := by
  unfold replicateLog
  pres apo using ap_isLeader, ap_logAppend, ap_requestAppendAll


/-! ## Whole inputs -/

/-- Blocks of a snapshot. -/
def Input.isSnap : Input → Bool
  | .req r => r.type == .snpReq
  | _ => false

theorem ap_dispatch (r : Req) (hJ : r.type = .joinReq → J) (hI : r.type = .snpReq → I) : Pres (AP A J I) (dispatch r) := by
  unfold dispatch handleExtended
  pres apo using ap_handleAppendEntries, ap_handleVoteReq, ap_handleCliReq, ap_handleAddSrv, ap_handleRmSrv,
    ap_handleLogSync, ap_handleLeave, ap_handlePrevoteReq, ap_die
  · exact ap_handleJoin (hJ ‹_›) r
  · exact ap_handleInstallSnapshot (hI ‹_›) r

/-- Every input moves log, commit index and applied index along a path. -/
theorem ap_run (x : Input) : Pres (AP (x = .apply) (x.isJoin = true) (x.isSnap = true)) x.run := by
  cases x with
  | req r =>
    show Pres _ (processReq r >>= fun resp => emit (.reply resp))
    unfold processReq
    refine pres_bind apo (pres_bind apo (ap_hearTerm r) fun _ => ap_dispatch r ?_ ?_) fun q => ap_emit (by trivial)
    · intro h; show (r.type == .joinReq) = true; rw [h]; rfl
    · intro h; show (r.type == .snpReq) = true; rw [h]; rfl
  | peerResp ty r => exact pres_bind apo (ap_rpcResult _ _ _) fun _ => ap_handlePeerResp r
  | extResp p ty r => exact pres_bind apo (ap_rpcResult _ _ _) fun _ => ap_handleExtResp r
  | peerErr r => exact ap_rpcResult _ _ _
  | extErr p r => exact pres_bind apo (ap_rpcResult _ _ _) fun _ => ap_handleExtErr r
  | retry r => exact ap_retryReq r
  | electionTimeout => exact ap_handleElectionTimeout
  | hbTimeout id => exact ap_handleHbTimeout _
  | apply => exact ap_applyOne rfl
  | snapDone q ok =>
    exact pres_ite (pres_bind apo (ap_keepSnap q) fun _ => ap_onSnapshotCompleted q true) (ap_onSnapshotCompleted q false)
  | replicate d => exact pres_bind apo (ap_replicateLog d) fun _ => pres_pure apo _
  | tick n => exact ap_mod fun s => ⟨rfl, rfl, rfl, rfl⟩

end Cs.Raft
