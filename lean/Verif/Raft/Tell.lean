import Verif.Raft.Pres
import Verif.Raft.Frame
import Verif.Raft.Store

/-!
# What the state machine is told about the log

A walk over all handlers for properties of the calls `pre_commit`, `rollback` and `commit`: `Inv` is an invariant of the effects so
far and the log, `Good` is what is proved of every effect, `Hyp` what is assumed of every effect, `Cl` what is assumed of the
entries of clients. `Rules` are the places where these calls are made.
-/

set_option linter.unusedSectionVars false
set_option linter.unusedVariables false

namespace Cs.Raft
open Cs

/-- `P` holds of every effect of `es` and the effects before it, `f` first. -/
def Each (P : List Eff → Eff → Prop) (f es : List Eff) : Prop := ∀ a e b, es = a ++ e :: b → P (f ++ a) e

theorem each_nil {P : List Eff → Eff → Prop} {f : List Eff} : Each P f [] := fun a e b h => by
  cases a <;> cases h

theorem each_cons {P : List Eff → Eff → Prop} {f es : List Eff} {e : Eff} : Each P f (e :: es) ↔ P f e ∧ Each P (f ++ [e]) es := by
  constructor
  · intro h
    refine ⟨by simpa using h [] e es rfl, fun a x b hx => ?_⟩
    have := h (e :: a) x b (by rw [hx]; rfl)
    simpa using this
  · rintro ⟨h1, h2⟩ a x b hx
    cases a with
    | nil => cases hx; simpa using h1
    | cons y a => cases hx; have := h2 a x b rfl; simpa using this

theorem each_append {P : List Eff → Eff → Prop} {f es es' : List Eff} :
    Each P f (es ++ es') ↔ Each P f es ∧ Each P (f ++ es) es' := by
  induction es generalizing f with
  | nil => simp [each_nil]
  | cons e es ih => rw [List.cons_append, each_cons, each_cons, ih]; simp [and_assoc]

/-- Effects that are neither calls of the state machine about entries nor changes of the entries of the log. -/
def Eff.quiet : Eff → Bool
  | .preCommit _ _ | .rollback _ _ | .commit _ _ | .append _ | .writeAt _ _ | .applyPack _ _ => false
  | _ => true

/-- See above. -/
structure Rules (Hyp Good : List Eff → Eff → Prop) (Inv : List Eff → Log → Prop) (Cl : Entry → Prop) : Prop where
  quiet : ∀ {f l e}, Eff.quiet e = true → Inv f l → Good f e ∧ Inv (f ++ [e]) l
  compact : ∀ {f l i}, l.start ≤ i → Inv f l → Inv f (l.compact i)
  new : ∀ {f l e}, Inv f l → Inv (f ++ (.append e :: noteFx l.next e)) (l.append e) ∧ Each Good f (.append e :: noteFx l.next e)
  client : ∀ {f l e}, Cl e → Inv f l →
    Inv (f ++ [.append e, .preCommit l.next e]) (l.append e) ∧ Each Good f [.append e, .preCommit l.next e]
  over : ∀ {f l i x e}, l.get? i = some x → Each Hyp f (rollFx i x ++ .writeAt i e :: noteFx i e) → Inv f l →
    Inv (f ++ (rollFx i x ++ .writeAt i e :: noteFx i e)) (l.replaceFrom i [e]) ∧
      Each Good f (rollFx i x ++ .writeAt i e :: noteFx i e)
  commit : ∀ {f l i t d}, l.get? i = some ⟨t, .app d⟩ → Inv f l →
    Good f (.commit i ⟨t, .app d⟩) ∧ Inv (f ++ [.commit i ⟨t, .app d⟩]) l

/-- The invariant is kept, whatever the effects before, and the new effects are good. -/
def Tell (Hyp Good : List Eff → Eff → Prop) (Inv : List Eff → Log → Prop) (s s' : Srv) : Prop :=
  ∃ es, s'.trace = s.trace ++ es ∧ ∀ f, Each Hyp f es → Inv f s.log → Inv (f ++ es) s'.log ∧ Each Good f es

variable {Hyp Good : List Eff → Eff → Prop} {Inv : List Eff → Log → Prop} {Cl : Entry → Prop}

theorem tellPo : PO (Tell Hyp Good Inv) := by
  refine ⟨fun s => ⟨[], by simp, fun f _ h => ⟨by simpa using h, each_nil⟩⟩, ?_⟩
  rintro a b c ⟨e1, t1, h1⟩ ⟨e2, t2, h2⟩
  refine ⟨e1 ++ e2, by rw [t2, t1, List.append_assoc], fun f hh hi => ?_⟩
  obtain ⟨p1, p2⟩ := each_append.1 hh
  obtain ⟨q1, q2⟩ := h1 f p1 hi
  obtain ⟨r1, r2⟩ := h2 _ p2 q1
  exact ⟨by rw [← List.append_assoc]; exact r1, each_append.2 ⟨q2, r2⟩⟩

theorem tl_same {s s' : Srv} (h1 : s'.trace = s.trace) (h2 : s'.log = s.log) : Tell Hyp Good Inv s s' :=
  ⟨[], by rw [h1, List.append_nil], fun f _ h => ⟨by rw [h2, List.append_nil]; exact h, each_nil⟩⟩

theorem tl_mod {f : Srv → Srv} (h : ∀ s, (f s).trace = s.trace ∧ (f s).log = s.log) : Pres (Tell Hyp Good Inv) (modify f : R PUnit) :=
  fun s => tl_same (h s).1 (h s).2

theorem tl_emit (H : Rules Hyp Good Inv Cl) (e : Eff) (h : e.quiet = true) : Pres (Tell Hyp Good Inv) (emit e) := fun s =>
  ⟨[e], rfl, fun f _ hi => by
    obtain ⟨h1, h2⟩ := H.quiet h hi
    exact ⟨h2, each_cons.2 ⟨h1, each_nil⟩⟩⟩

theorem tl_modPeer (r : PeerRef) (f : Peer → Peer) : Pres (Tell Hyp Good Inv) (modPeer r f) := fun s => by
  cases r <;> exact tl_same rfl rfl

theorem tl_logAppend (H : Rules Hyp Good Inv Cl) (e : Entry) (h : e.isApp = false) : Pres (Tell Hyp Good Inv) (logAppend e) :=
  fun s => ⟨[.append e], rfl, fun f _ hi => by
    have hn : noteFx s.log.next e = [] := by unfold noteFx; rw [if_neg (by rw [h]; nofun)]
    have := H.new (e := e) hi
    rw [hn] at this
    exact this⟩

/-- The primitive updates. -/
macro "tl" : tactic => `(tactic| first | rfl | exact tl_mod fun _ => ⟨rfl, rfl⟩ | exact tl_mod fun _ => (by split <;> exact ⟨rfl, rfl⟩) | exact tl_same rfl rfl | (intro _; exact tl_same rfl rfl))

theorem tl_logCompact (H : Rules Hyp Good Inv Cl) (i : Nat) : Pres (Tell Hyp Good Inv) (logCompact i) := by
  intro s
  unfold logCompact
  rw [bind_get]
  by_cases h : i < s.log.start
  · rw [if_pos h]; exact tellPo.refl s
  · rw [if_neg h]
    by_cases hc : s.env.compactOk i
    · rw [if_pos hc]
      refine ⟨[.compact i], rfl, fun f _ hi => ?_⟩
      obtain ⟨h1, h2⟩ := H.quiet (e := .compact i) rfl (H.compact (i := i) (by omega) hi)
      exact ⟨h2, each_cons.2 ⟨h1, each_nil⟩⟩
    · rw [if_neg hc]; exact tellPo.refl s

theorem tl_die (H : Rules Hyp Good Inv Cl) {α : Type} (c : Int) : Pres (Tell Hyp Good Inv) (die c : R α) := by
  unfold die
  pres tellPo using tl_emit H
  all_goals tl
theorem tl_saveState (H : Rules Hyp Good Inv Cl)  : Pres (Tell Hyp Good Inv) (saveState) := by
  unfold saveState
  pres tellPo using tl_emit H
  all_goals tl
theorem tl_getPeer (H : Rules Hyp Good Inv Cl) (r : PeerRef) : Pres (Tell Hyp Good Inv) (getPeer r) := by
  unfold getPeer
  pres tellPo using tl_emit H
  all_goals tl
theorem tl_peerIds (H : Rules Hyp Good Inv Cl)  : Pres (Tell Hyp Good Inv) (peerIds) := by
  unfold peerIds
  pres tellPo using tl_emit H
  all_goals tl
theorem tl_termAt (H : Rules Hyp Good Inv Cl) (i : Nat) : Pres (Tell Hyp Good Inv) (termAt i) := by
  unfold termAt
  pres tellPo using tl_emit H
  all_goals tl
theorem tl_entryAt (H : Rules Hyp Good Inv Cl) (i : Nat) : Pres (Tell Hyp Good Inv) (entryAt i) := by
  unfold entryAt
  pres tellPo using tl_emit H
  all_goals tl
theorem tl_entryToApply (H : Rules Hyp Good Inv Cl) (i : Nat) : Pres (Tell Hyp Good Inv) (entryToApply i) := by
  unfold entryToApply
  pres tellPo using tl_die H
  all_goals tl
theorem tl_termForLog (H : Rules Hyp Good Inv Cl) (i : Nat) : Pres (Tell Hyp Good Inv) (termForLog i) := by
  unfold termForLog
  pres tellPo using tl_die H, tl_termAt H
  all_goals tl
theorem tl_restartElectionTimer (H : Rules Hyp Good Inv Cl)  : Pres (Tell Hyp Good Inv) (restartElectionTimer) := by
  unfold restartElectionTimer
  pres tellPo using tl_emit H
  all_goals tl
theorem tl_stopElectionTimer (H : Rules Hyp Good Inv Cl)  : Pres (Tell Hyp Good Inv) (stopElectionTimer) := by
  unfold stopElectionTimer
  pres tellPo using tl_emit H
  all_goals tl
theorem tl_enableHb (H : Rules Hyp Good Inv Cl) (r : PeerRef) : Pres (Tell Hyp Good Inv) (enableHb r) := by
  unfold enableHb
  pres tellPo using tl_modPeer
  all_goals tl
theorem tl_becomeFollower (H : Rules Hyp Good Inv Cl)  : Pres (Tell Hyp Good Inv) (becomeFollower) := by
  unfold becomeFollower
  pres tellPo using tl_emit H, tl_restartElectionTimer H
  all_goals tl
theorem tl_updateTerm (H : Rules Hyp Good Inv Cl) (term : Nat) : Pres (Tell Hyp Good Inv) (updateTerm term) := by
  unfold updateTerm
  pres tellPo using tl_saveState H, tl_becomeFollower H
  all_goals tl
theorem tl_chooseSnap (H : Rules Hyp Good Inv Cl) (r : PeerRef) (lastIdx : Nat) : Pres (Tell Hyp Good Inv) (chooseSnap r lastIdx) := by
  unfold chooseSnap
  pres tellPo using tl_die H, tl_modPeer, tl_getPeer H
  all_goals tl
theorem tl_createSyncSnapshotReq (H : Rules Hyp Good Inv Cl) (r : PeerRef) (lastIdx term commitIdx : Nat) : Pres (Tell Hyp Good Inv) (createSyncSnapshotReq r lastIdx term commitIdx) := by
  unfold createSyncSnapshotReq
  pres tellPo using tl_die H, tl_getPeer H, tl_chooseSnap H
  all_goals tl
theorem tl_entriesFrom (H : Rules Hyp Good Inv Cl) (last : Nat) : Pres (Tell Hyp Good Inv) (entriesFrom last) := by
  unfold entriesFrom
  pres tellPo using tl_emit H
  all_goals tl
theorem tl_appendReqFrom (H : Rules Hyp Good Inv Cl) (r : PeerRef) (last : Nat) : Pres (Tell Hyp Good Inv) (appendReqFrom r last) := by
  unfold appendReqFrom
  pres tellPo using tl_getPeer H, tl_termForLog H, tl_entriesFrom H
  all_goals tl
theorem tl_createAppendReq (H : Rules Hyp Good Inv Cl) (r : PeerRef) : Pres (Tell Hyp Good Inv) (createAppendReq r) := by
  unfold createAppendReq
  pres tellPo using tl_die H, tl_modPeer, tl_getPeer H, tl_createSyncSnapshotReq H, tl_appendReqFrom H
  all_goals tl
theorem tl_requestAppend (H : Rules Hyp Good Inv Cl) (r : PeerRef) : Pres (Tell Hyp Good Inv) (requestAppend r) := by
  unfold requestAppend
  pres tellPo using tl_emit H, tl_modPeer, tl_getPeer H, tl_createAppendReq H
  all_goals tl
theorem tl_commitNotify (H : Rules Hyp Good Inv Cl) (id : Int) : Pres (Tell Hyp Good Inv) (commitNotify id) := by
  unfold commitNotify
  pres tellPo using tl_modPeer, tl_requestAppend H
  all_goals tl
theorem tl_commit (H : Rules Hyp Good Inv Cl) (target : Nat) : Pres (Tell Hyp Good Inv) (commit target) := by
  unfold commit
  pres tellPo using tl_emit H, tl_peerIds H, tl_commitNotify H
  all_goals tl
theorem tl_requestAppendTo (H : Rules Hyp Good Inv Cl) (id : Int) : Pres (Tell Hyp Good Inv) (requestAppendTo id) := by
  unfold requestAppendTo
  pres tellPo using tl_requestAppend H
  all_goals tl
theorem tl_requestAppendAll (H : Rules Hyp Good Inv Cl)  : Pres (Tell Hyp Good Inv) (requestAppendAll) := by
  unfold requestAppendAll
  pres tellPo using tl_peerIds H, tl_commit H, tl_requestAppendTo H
  all_goals tl
theorem tl_leaderPeer (H : Rules Hyp Good Inv Cl) (id : Int) : Pres (Tell Hyp Good Inv) (leaderPeer id) := by
  unfold leaderPeer
  pres tellPo using tl_modPeer, tl_enableHb H
  all_goals tl
theorem tl_initialConf (H : Rules Hyp Good Inv Cl)  : Pres (Tell Hyp Good Inv) (initialConf) := by
  unfold initialConf
  pres tellPo using tl_logAppend H
  all_goals tl
theorem tl_becomeLeader (H : Rules Hyp Good Inv Cl)  : Pres (Tell Hyp Good Inv) (becomeLeader) := by
  unfold becomeLeader
  pres tellPo using tl_emit H, tl_peerIds H, tl_stopElectionTimer H, tl_requestAppendAll H, tl_leaderPeer H, tl_initialConf H
  all_goals tl
theorem tl_askVote (H : Rules Hyp Good Inv Cl) (ty : MsgType) (id : Int) : Pres (Tell Hyp Good Inv) (askVote ty id) := by
  unfold askVote
  pres tellPo using tl_emit H, tl_termForLog H
  all_goals tl
theorem tl_voteSelf (H : Rules Hyp Good Inv Cl)  : Pres (Tell Hyp Good Inv) (voteSelf) := by
  unfold voteSelf
  pres tellPo using tl_saveState H
  all_goals tl
theorem tl_askForVotes (H : Rules Hyp Good Inv Cl)  : Pres (Tell Hyp Good Inv) (askForVotes) := by
  unfold askForVotes
  pres tellPo using tl_peerIds H, tl_becomeLeader H, tl_askVote H
  all_goals tl
theorem tl_requestVote (H : Rules Hyp Good Inv Cl)  : Pres (Tell Hyp Good Inv) (requestVote) := by
  unfold requestVote
  pres tellPo using tl_voteSelf H, tl_askForVotes H
  all_goals tl
theorem tl_startTerm (H : Rules Hyp Good Inv Cl)  : Pres (Tell Hyp Good Inv) (startTerm) := by
  unfold startTerm
  pres tellPo using tl_saveState H
  all_goals tl
theorem tl_rearm (H : Rules Hyp Good Inv Cl)  : Pres (Tell Hyp Good Inv) (rearm) := by
  unfold rearm
  pres tellPo using tl_restartElectionTimer H
  all_goals tl
theorem tl_becomeCandidate (H : Rules Hyp Good Inv Cl)  : Pres (Tell Hyp Good Inv) (becomeCandidate) := by
  unfold becomeCandidate
  pres tellPo using tl_requestVote H, tl_startTerm H, tl_rearm H
  all_goals tl
theorem tl_requestPrevote (H : Rules Hyp Good Inv Cl)  : Pres (Tell Hyp Good Inv) (requestPrevote) := by
  unfold requestPrevote
  pres tellPo using tl_peerIds H, tl_askVote H, tl_becomeCandidate H
  all_goals tl
theorem tl_leaveConfig (H : Rules Hyp Good Inv Cl)  : Pres (Tell Hyp Good Inv) (leaveConfig) := by
  unfold leaveConfig
  pres tellPo using tl_emit H
  all_goals tl
theorem tl_handleElectionTimeout (H : Rules Hyp Good Inv Cl)  : Pres (Tell Hyp Good Inv) (handleElectionTimeout) := by
  unfold handleElectionTimeout
  pres tellPo using tl_die H, tl_restartElectionTimer H, tl_becomeCandidate H, tl_requestPrevote H, tl_leaveConfig H
  all_goals tl
theorem tl_handleHbTimeout (H : Rules Hyp Good Inv Cl) (r : PeerRef) : Pres (Tell Hyp Good Inv) (handleHbTimeout r) := by
  unfold handleHbTimeout
  pres tellPo using tl_modPeer, tl_requestAppend H
  all_goals tl
theorem tl_skipSame (H : Rules Hyp Good Inv Cl) (idx : Nat) (es : List Entry) : Pres (Tell Hyp Good Inv) (skipSame idx es) := by
  induction es generalizing idx with
  | nil => exact pres_pure tellPo _
  | cons e es ih =>
    unfold skipSame
    pres tellPo using tl_termAt H, ih
    all_goals tl
theorem tl_overwriteOld (H : Rules Hyp Good Inv Cl) (idx : Nat) (es : List Entry) :
    Pres (Tell Hyp Good Inv) (overwriteOld idx es) := by
  cases es with
  | nil => exact pres_pure tellPo _
  | cons e es =>
    intro s
    by_cases h : idx < s.log.next
    · rcases hg : s.log.get? idx with _ | x
      · unfold overwriteOld
        rw [bind_get, if_pos h]
        unfold rollbackOld
        have he : entryAt idx s = (.error (if idx < s.log.start then .thrown else .ub), s) := by
          unfold entryAt; rw [bind_get, hg]; rfl
        rw [run_bind_err (run_bind_err he)]
        exact tellPo.refl s
      · rw [run_overwriteOld_lt hg]
        exact ⟨_, rfl, fun f hh hi => H.over hg hh hi⟩
    · rw [run_overwriteOld_ge (by omega)]
      exact tellPo.refl s
theorem tl_appendNew (H : Rules Hyp Good Inv Cl) (es : List Entry) : Pres (Tell Hyp Good Inv) (appendNew es) := by
  induction es with
  | nil => exact pres_pure tellPo _
  | cons e es ih =>
    intro s
    unfold appendNew
    rw [bind_get]
    have h1 : logAppend e s = (.ok ⟨⟩, { s with log := s.log.append e, trace := s.trace ++ [.append e] }) := rfl
    rw [run_bind_ok h1, run_bind_ok (run_noteNew _ _ _)]
    refine tellPo.trans ?_ (ih _)
    exact ⟨.append e :: noteFx s.log.next e, by simp, fun f hh hi => H.new hi⟩
theorem tl_storeEntries (H : Rules Hyp Good Inv Cl) (req : Req) : Pres (Tell Hyp Good Inv) (storeEntries req) := by
  unfold storeEntries
  pres tellPo using tl_skipSame H, tl_overwriteOld H, tl_appendNew H
  all_goals tl
theorem tl_hearLeader (H : Rules Hyp Good Inv Cl) (req : Req) : Pres (Tell Hyp Good Inv) (hearLeader req) := by
  unfold hearLeader
  pres tellPo using tl_die H, tl_restartElectionTimer H, tl_becomeFollower H
  all_goals tl
theorem tl_logOkay (H : Rules Hyp Good Inv Cl) (req : Req) : Pres (Tell Hyp Good Inv) (logOkay req) := by
  unfold logOkay
  pres tellPo using tl_termForLog H
  all_goals tl
theorem tl_handleAppendEntries (H : Rules Hyp Good Inv Cl) (req : Req) : Pres (Tell Hyp Good Inv) (handleAppendEntries req) := by
  unfold handleAppendEntries
  pres tellPo using tl_commit H, tl_storeEntries H, tl_hearLeader H, tl_logOkay H
  all_goals tl
theorem tl_handleVoteReq (H : Rules Hyp Good Inv Cl) (req : Req) : Pres (Tell Hyp Good Inv) (handleVoteReq req) := by
  unfold handleVoteReq
  pres tellPo using tl_saveState H
  all_goals tl
theorem tl_handlePrevoteReq (H : Rules Hyp Good Inv Cl) (req : Req) : Pres (Tell Hyp Good Inv) (handlePrevoteReq req) := by
  unfold handlePrevoteReq
  pres tellPo using tl_emit H
  all_goals tl
theorem tl_isLeader (H : Rules Hyp Good Inv Cl)  : Pres (Tell Hyp Good Inv) (isLeader) := by
  unfold isLeader
  pres tellPo using tl_emit H
  all_goals tl
theorem tl_appendClient (H : Rules Hyp Good Inv Cl) (es : List Entry) (hc : ∀ e ∈ es, ∀ t, Cl { e with term := t }) :
    Pres (Tell Hyp Good Inv) (appendClient es) := by
  induction es with
  | nil => exact pres_pure tellPo _
  | cons e es ih =>
    intro s
    unfold appendClient
    rw [bind_get]
    have h1 : ∀ e, logAppend e s = (.ok ⟨⟩, { s with log := s.log.append e, trace := s.trace ++ [.append e] }) := fun _ => rfl
    have h2 : ∀ (e : Eff) (s : Srv), emit e s = (.ok ⟨⟩, { s with trace := s.trace ++ [e] }) := fun _ _ => rfl
    rw [run_bind_ok (h1 _), run_bind_ok (h2 _ _)]
    refine tellPo.trans ?_ (ih (fun e he => hc e (List.mem_cons_of_mem _ he)) _)
    exact ⟨[.append { e with term := s.term }, .preCommit s.log.next { e with term := s.term }], by simp,
      fun f hh hi => H.client (hc e (List.mem_cons_self ..) _) hi⟩
theorem tl_addPeer (H : Rules Hyp Good Inv Cl) (c : SrvCfg) : Pres (Tell Hyp Good Inv) (addPeer c) := by
  unfold addPeer
  pres tellPo using tl_modPeer, tl_enableHb H
  all_goals tl
theorem tl_removePeer (H : Rules Hyp Good Inv Cl) (c : Config) (id : Int) : Pres (Tell Hyp Good Inv) (removePeer c id) := by
  unfold removePeer
  pres tellPo using tl_emit H, tl_die H
  all_goals tl
theorem tl_reconfigure (H : Rules Hyp Good Inv Cl) (c : Config) : Pres (Tell Hyp Good Inv) (reconfigure c) := by
  unfold reconfigure
  pres tellPo using tl_addPeer H, tl_removePeer H
  all_goals tl
theorem tl_installSnapshot (H : Rules Hyp Good Inv Cl) (snp : Snap) : Pres (Tell Hyp Good Inv) (installSnapshot snp) := by
  unfold installSnapshot
  pres tellPo using tl_emit H, tl_die H, tl_logCompact H, tl_saveState H, tl_restartElectionTimer H, tl_stopElectionTimer H, tl_reconfigure H
  all_goals tl
theorem tl_handleSnapshotSync (H : Rules Hyp Good Inv Cl) (q : SnpSync) : Pres (Tell Hyp Good Inv) (handleSnapshotSync q) := by
  unfold handleSnapshotSync
  pres tellPo using tl_emit H, tl_die H, tl_installSnapshot H
  all_goals tl
theorem tl_hearSnapshotLeader (H : Rules Hyp Good Inv Cl) (req : Req) : Pres (Tell Hyp Good Inv) (hearSnapshotLeader req) := by
  unfold hearSnapshotLeader
  pres tellPo using tl_die H, tl_restartElectionTimer H, tl_becomeFollower H
  all_goals tl
theorem tl_handleInstallSnapshot (H : Rules Hyp Good Inv Cl) (req : Req) : Pres (Tell Hyp Good Inv) (handleInstallSnapshot req) := by
  unfold handleInstallSnapshot
  pres tellPo using tl_handleSnapshotSync H, tl_hearSnapshotLeader H
  all_goals tl
theorem tl_handleRmSrv (H : Rules Hyp Good Inv Cl) (req : Req) : Pres (Tell Hyp Good Inv) (handleRmSrv req) := by
  unfold handleRmSrv
  pres tellPo using tl_emit H
  all_goals tl
theorem tl_inviteSrv (H : Rules Hyp Good Inv Cl)  : Pres (Tell Hyp Good Inv) (inviteSrv) := by
  unfold inviteSrv
  pres tellPo using tl_emit H, tl_getPeer H
  all_goals tl
theorem tl_handleAddSrv (H : Rules Hyp Good Inv Cl) (req : Req) : Pres (Tell Hyp Good Inv) (handleAddSrv req) := by
  unfold handleAddSrv
  pres tellPo using tl_inviteSrv H
  all_goals tl
theorem tl_handleJoin (H : Rules Hyp Good Inv Cl) (req : Req) : Pres (Tell Hyp Good Inv) (handleJoin req) := by
  unfold handleJoin
  pres tellPo using tl_saveState H, tl_reconfigure H
  all_goals tl
theorem tl_handleLeave (H : Rules Hyp Good Inv Cl) (req : Req) : Pres (Tell Hyp Good Inv) (handleLeave req) := by
  unfold handleLeave
  pres tellPo using tl_emit H
  all_goals tl
theorem tl_hearTerm (H : Rules Hyp Good Inv Cl) (req : Req) : Pres (Tell Hyp Good Inv) (hearTerm req) := by
  unfold hearTerm
  pres tellPo using tl_updateTerm H
  all_goals tl
theorem tl_acceptedResp (H : Rules Hyp Good Inv Cl) (resp : Resp) : Pres (Tell Hyp Good Inv) (acceptedResp resp) := by
  unfold acceptedResp
  pres tellPo using tl_modPeer, tl_getPeer H, tl_commit H
  all_goals tl
theorem tl_refusedResp (H : Rules Hyp Good Inv Cl) (resp : Resp) : Pres (Tell Hyp Good Inv) (refusedResp resp) := by
  unfold refusedResp
  pres tellPo using tl_modPeer
  all_goals tl
theorem tl_handleAppendResp (H : Rules Hyp Good Inv Cl) (resp : Resp) : Pres (Tell Hyp Good Inv) (handleAppendResp resp) := by
  unfold handleAppendResp
  pres tellPo using tl_requestAppendTo H, tl_acceptedResp H, tl_refusedResp H
  all_goals tl
theorem tl_acceptedSnpResp (H : Rules Hyp Good Inv Cl) (resp : Resp) : Pres (Tell Hyp Good Inv) (acceptedSnpResp resp) := by
  unfold acceptedSnpResp
  pres tellPo using tl_modPeer, tl_getPeer H
  all_goals tl
theorem tl_handleSnpResp (H : Rules Hyp Good Inv Cl) (resp : Resp) : Pres (Tell Hyp Good Inv) (handleSnpResp resp) := by
  unfold handleSnpResp
  pres tellPo using tl_requestAppendTo H, tl_acceptedSnpResp H
  all_goals tl
theorem tl_handleVotingResp (H : Rules Hyp Good Inv Cl) (resp : Resp) : Pres (Tell Hyp Good Inv) (handleVotingResp resp) := by
  unfold handleVotingResp
  pres tellPo using tl_becomeLeader H
  all_goals tl
theorem tl_dispatchResp (H : Rules Hyp Good Inv Cl) (resp : Resp) : Pres (Tell Hyp Good Inv) (dispatchResp resp) := by
  unfold dispatchResp
  pres tellPo using tl_die H, tl_handleAppendResp H, tl_handleSnpResp H, tl_handleVotingResp H
  all_goals tl
theorem tl_handlePeerResp (H : Rules Hyp Good Inv Cl) (resp : Resp) : Pres (Tell Hyp Good Inv) (handlePeerResp resp) := by
  unfold handlePeerResp
  pres tellPo using tl_modPeer, tl_updateTerm H, tl_dispatchResp H
  all_goals tl
theorem tl_handlePrevoteResp (H : Rules Hyp Good Inv Cl) (resp : Resp) : Pres (Tell Hyp Good Inv) (handlePrevoteResp resp) := by
  unfold handlePrevoteResp
  pres tellPo using tl_restartElectionTimer H, tl_becomeCandidate H
  all_goals tl
theorem tl_addToConfig (H : Rules Hyp Good Inv Cl)  : Pres (Tell Hyp Good Inv) (addToConfig) := by
  unfold addToConfig
  pres tellPo using tl_logAppend H, tl_requestAppendAll H
  all_goals tl
theorem tl_syncLogToNewSrv (H : Rules Hyp Good Inv Cl) (start : Nat) : Pres (Tell Hyp Good Inv) (syncLogToNewSrv start) := by
  unfold syncLogToNewSrv
  pres tellPo using tl_emit H, tl_getPeer H, tl_createSyncSnapshotReq H, tl_addToConfig H
  all_goals tl
theorem tl_rmSrvFromCluster (H : Rules Hyp Good Inv Cl) (id : Int) : Pres (Tell Hyp Good Inv) (rmSrvFromCluster id) := by
  unfold rmSrvFromCluster
  pres tellPo using tl_logAppend H, tl_requestAppendAll H
  all_goals tl
theorem tl_handleExtSnpResp (H : Rules Hyp Good Inv Cl) (resp : Resp) : Pres (Tell Hyp Good Inv) (handleExtSnpResp resp) := by
  unfold handleExtSnpResp
  pres tellPo using tl_die H, tl_modPeer, tl_getPeer H, tl_syncLogToNewSrv H
  all_goals tl
theorem tl_handleExtResp (H : Rules Hyp Good Inv Cl) (resp : Resp) : Pres (Tell Hyp Good Inv) (handleExtResp resp) := by
  unfold handleExtResp
  pres tellPo using tl_die H, tl_modPeer, tl_handlePrevoteResp H, tl_syncLogToNewSrv H, tl_rmSrvFromCluster H, tl_handleExtSnpResp H
  all_goals tl
theorem tl_forceRemove (H : Rules Hyp Good Inv Cl) (id : Int) : Pres (Tell Hyp Good Inv) (forceRemove id) := by
  unfold forceRemove
  pres tellPo using tl_rmSrvFromCluster H
  all_goals tl
theorem tl_handleExtErr (H : Rules Hyp Good Inv Cl) (req : Req) : Pres (Tell Hyp Good Inv) (handleExtErr req) := by
  unfold handleExtErr
  pres tellPo using tl_modPeer, tl_forceRemove H
  all_goals tl
theorem tl_retryReq (H : Rules Hyp Good Inv Cl) (req : Req) : Pres (Tell Hyp Good Inv) (retryReq req) := by
  unfold retryReq
  pres tellPo using tl_emit H
  all_goals tl
theorem tl_rpcResult (H : Rules Hyp Good Inv Cl) (r : PeerRef) (ty : MsgType) (ok : Bool) : Pres (Tell Hyp Good Inv) (rpcResult r ty ok) := by
  unfold rpcResult
  pres tellPo using tl_modPeer
  all_goals tl
theorem tl_commitConf (H : Rules Hyp Good Inv Cl) (c : Config) : Pres (Tell Hyp Good Inv) (commitConf c) := by
  unfold commitConf
  pres tellPo using tl_emit H, tl_reconfigure H
  all_goals tl
theorem tl_findConf (H : Rules Hyp Good Inv Cl) (idx n : Nat) (c : Config) : Pres (Tell Hyp Good Inv) (findConf idx n c) := by
  induction n generalizing c with
  | zero => exact pres_throw tellPo _
  | succ n ih =>
    unfold findConf
    pres tellPo using tl_entryAt H, tl_die H, ih
    all_goals tl
theorem tl_confForSnap (H : Rules Hyp Good Inv Cl) (idx : Nat) : Pres (Tell Hyp Good Inv) (confForSnap idx) := by
  unfold confForSnap
  pres tellPo using tl_die H, tl_findConf H
  all_goals tl
theorem tl_startSnapshot (H : Rules Hyp Good Inv Cl) (idx : Nat) : Pres (Tell Hyp Good Inv) (startSnapshot idx) := by
  unfold startSnapshot
  pres tellPo using tl_emit H, tl_termAt H, tl_confForSnap H
  all_goals tl
theorem tl_snapshotAndCompact (H : Rules Hyp Good Inv Cl) (idx : Nat) : Pres (Tell Hyp Good Inv) (snapshotAndCompact idx) := by
  unfold snapshotAndCompact
  pres tellPo using tl_startSnapshot H
  all_goals tl
theorem tl_keepSnap (H : Rules Hyp Good Inv Cl) (snp : Snap) : Pres (Tell Hyp Good Inv) (keepSnap snp) := by
  unfold keepSnap
  pres tellPo using tl_emit H
  all_goals tl
theorem tl_onSnapshotCompleted (H : Rules Hyp Good Inv Cl) (snp : Snap) (ok : Bool) : Pres (Tell Hyp Good Inv) (onSnapshotCompleted snp ok) := by
  unfold onSnapshotCompleted
  pres tellPo using tl_logCompact H
  all_goals tl

theorem pres_bind_at {Q : Srv → Srv → Prop} {α β : Type} (h : PO Q) {m : R α} {k : α → R β} {s : Srv} (h1 : Q s (m s).2)
    (h2 : ∀ a, Pres Q (k a)) : Q s ((m >>= k) s).2 := by
  rw [run_bind]
  rcases hm : m s with ⟨a | a, s'⟩
  · rw [hm] at h1; exact h1
  · rw [hm] at h1; exact h.trans h1 (h2 a s')

theorem tl_applyAt (H : Rules Hyp Good Inv Cl) (i : Nat) :
    Pres (Tell Hyp Good Inv) (do let e ← entryToApply i; applyEntry i e; snapshotAndCompact i) := by
  intro s
  rcases hg : s.log.get? i with _ | e
  · have := tl_entryToApply H i s
    rcases entryToApply_none hg with ⟨_, h⟩ | ⟨_, h⟩
    · rw [h] at this; rw [run_bind_err h]; exact this
    · rw [h] at this; rw [run_bind_err h]; exact this
  · rw [run_bind_ok (entryToApply_some hg)]
    obtain ⟨t, v⟩ := e
    refine pres_bind_at tellPo (m := applyEntry i ⟨t, v⟩) ?_ fun _ => tl_snapshotAndCompact H i
    cases v with
    | app d =>
      refine ⟨[.commit i ⟨t, .app d⟩], rfl, fun f _ hi => ?_⟩
      obtain ⟨h1, h2⟩ := H.commit hg hi
      exact ⟨h2, each_cons.2 ⟨h1, each_nil⟩⟩
    | conf c => exact tl_commitConf H c s
    | _ => exact tellPo.refl s

theorem tl_applyOne (H : Rules Hyp Good Inv Cl) : Pres (Tell Hyp Good Inv) applyOne := by
  unfold applyOne
  pres tellPo using tl_applyAt H
  all_goals tl

theorem tl_handleCliReq (H : Rules Hyp Good Inv Cl) (r : Req) (hc : ∀ e ∈ r.entries, ∀ t, Cl { e with term := t }) :
    Pres (Tell Hyp Good Inv) (handleCliReq r) := by
  unfold handleCliReq
  pres tellPo using tl_isLeader H, tl_appendClient H, tl_requestAppendAll H
  all_goals exact hc

theorem tl_dispatch (H : Rules Hyp Good Inv Cl) (r : Req) (h : r.type ≠ .syncReq)
    (hc : r.type = .clientReq → ∀ e ∈ r.entries, ∀ t, Cl { e with term := t }) : Pres (Tell Hyp Good Inv) (dispatch r) := by
  unfold dispatch handleExtended
  pres tellPo using tl_handleAppendEntries H, tl_handleVoteReq H, tl_handleAddSrv H, tl_handleRmSrv H,
    tl_handlePrevoteReq H, tl_die H, tl_handleJoin H, tl_handleInstallSnapshot H, tl_handleLeave H
  · exact tl_handleCliReq H r (hc ‹_›)
  · exact absurd ‹_› h

/-- Every input but packs of the log and commands of the application itself. -/
theorem tl_run (H : Rules Hyp Good Inv Cl) {x : Input} (hs : ∀ r, x = .req r → r.type ≠ .syncReq) (hr : ∀ d, x ≠ .replicate d)
    (hc : ∀ r, x = .req r → r.type = .clientReq → ∀ e ∈ r.entries, ∀ t, Cl { e with term := t }) :
    Pres (Tell Hyp Good Inv) x.run := by
  cases x with
  | req r =>
    show Pres _ (processReq r >>= fun resp => emit (.reply resp))
    unfold processReq
    exact pres_bind tellPo (pres_bind tellPo (tl_hearTerm H r) fun _ => tl_dispatch H r (hs r rfl) (hc r rfl)) fun q => tl_emit H _ rfl
  | peerResp ty r => exact pres_bind tellPo (tl_rpcResult H _ _ _) fun _ => tl_handlePeerResp H r
  | extResp p ty r => exact pres_bind tellPo (tl_rpcResult H _ _ _) fun _ => tl_handleExtResp H r
  | peerErr r => exact tl_rpcResult H _ _ _
  | extErr p r => exact pres_bind tellPo (tl_rpcResult H _ _ _) fun _ => tl_handleExtErr H r
  | retry r => exact tl_retryReq H r
  | electionTimeout => exact tl_handleElectionTimeout H
  | hbTimeout id => exact tl_handleHbTimeout H _
  | apply => exact tl_applyOne H
  | snapDone q ok =>
    exact pres_ite (pres_bind tellPo (tl_keepSnap H q) fun _ => tl_onSnapshotCompleted H q true) (tl_onSnapshotCompleted H q false)
  | replicate d => exact absurd rfl (hr d)
  | tick n => exact tl_mod fun s => ⟨rfl, rfl⟩

end Cs.Raft
