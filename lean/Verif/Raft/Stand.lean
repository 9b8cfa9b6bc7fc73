import Verif.Raft.Frame
import Verif.Raft.Spec

/-!
# The election timer of a server that is no leader

A walk over the handlers, without invitations to join: whatever happens, a server that goes on is leader, or its election timer is
scheduled, or it has asked for pre-votes and waits.
-/

set_option linter.unusedSectionVars false
set_option linter.unusedVariables false

namespace Cs.Raft
open Cs

/-- A round of pre-votes is open: the server has asked, and the round has neither succeeded nor failed. -/
def Srv.asking (s : Srv) : Prop := ∃ v n, s.prevote = some (v, n) ∧ v ≠ []

/-- See above. `P` are the parameters of the server. -/
def Srv.Tries (P : Params) (s : Srv) : Prop :=
  s.armed = true ∨ s.role = .leader ∨ (P.prevote = true ∧ s.asking)

/-- Not the process of a server that is being invited. -/
def Srv.Based (P : Params) (s : Srv) : Prop := s.params = P ∧ s.catchingUp = false

/-- The server goes on after this result. -/
def Lives {α : Type} (r : Except Fault α) : Prop := (∃ a, r = .ok a) ∨ r = .error .thrown

/-- `Q` holds between the states before and after `m`, if the server goes on. -/
def Goes {α : Type} (Q : Srv → Srv → Prop) (m : R α) : Prop := ∀ s, Lives (m s).1 → Q s (m s).2

/-- The relation of the walk. -/
def Stand (P : Params) (s s' : Srv) : Prop := s.Based P → s'.Based P ∧ (s.Tries P → s'.Tries P)

/-- Afterwards the server tries, whatever was before. -/
def Makes {α : Type} (P : Params) (m : R α) : Prop := ∀ s, Lives (m s).1 → s.Based P → (m s).2.Based P ∧ (m s).2.Tries P

/-- Nothing is said about the timer, and no exception is thrown. -/
def SameAim {α : Type} (P : Params) (m : R α) : Prop :=
  ∀ s, (m s).1 ≠ .error .thrown ∧ (Lives (m s).1 → s.Based P → (m s).2.Based P)

variable {P : Params} {α β : Type}

theorem lives_ok {a : α} : Lives (.ok a : Except Fault α) := .inl ⟨a, rfl⟩

theorem stand_refl (s : Srv) : Stand P s s := fun h => ⟨h, fun t => t⟩
theorem stand_trans {a b c : Srv} (h : Stand P a b) (g : Stand P b c) : Stand P a c := fun hb =>
  ⟨(g (h hb).1).1, fun t => (g (h hb).1).2 ((h hb).2 t)⟩

theorem goes_bind {m : R α} {k : α → R β} (h1 : Goes (Stand P) m) (h2 : ∀ a, Goes (Stand P) (k a)) : Goes (Stand P) (m >>= k) := by
  intro s hl
  have e1 := h1 s
  rw [run_bind] at hl ⊢
  rcases hm : m s with ⟨a | a, s'⟩
  · rw [hm] at e1 hl
    refine e1 ?_
    rcases hl with ⟨b, hb⟩ | hb
    · cases hb
    · right; cases hb; rfl
  · rw [hm] at e1 hl
    exact stand_trans (e1 lives_ok) (h2 a s' hl)

theorem goes_pure (a : α) : Goes (Stand P) (pure a : R α) := fun s _ => stand_refl s
theorem goes_throw (e : Fault) : Goes (Stand P) (throw e : R α) := fun s _ => stand_refl s
theorem goes_get : Goes (Stand P) (get : R Srv) := fun s _ => stand_refl s
theorem goes_ite {c : Prop} [Decidable c] {a b : R α} (h1 : Goes (Stand P) a) (h2 : Goes (Stand P) b) :
    Goes (Stand P) (if c then a else b) := by
  split <;> assumption

theorem goes_forEach {f : α → R Unit} (hf : ∀ a, Goes (Stand P) (f a)) : ∀ as, Goes (Stand P) (forEach f as)
  | [] => goes_pure ()
  | a :: as => goes_bind (hf a) fun _ => goes_forEach hf as

theorem goes_catch {m k : R Unit} (h1 : Goes (Stand P) m) (h2 : Goes (Stand P) k) : Goes (Stand P) (catchThrown m k) := by
  intro s hl
  have e1 := h1 s
  unfold Cs.Raft.catchThrown at hl ⊢
  rcases hm : m s with ⟨a | a, s'⟩
  · rw [hm] at e1 hl
    cases a with
    | thrown => exact stand_trans (e1 (.inr rfl)) (h2 s' hl)
    | _ => exact e1 hl
  · rw [hm] at e1; exact e1 lives_ok

/-- Take a handler apart, as `pres` does. -/
macro "goes" "using" ls:term,* : tactic => `(tactic|
  repeat' first
  | with_reducible assumption
  $[| with_reducible apply $ls]*
  | with_reducible exact goes_pure _
  | with_reducible exact goes_throw _
  | with_reducible exact goes_get
  | with_reducible apply goes_bind
  | with_reducible apply goes_ite
  | with_reducible apply goes_forEach
  | with_reducible apply goes_catch
  | with_reducible intro _
  | split)

theorem sd_same {s s' : Srv} (h1 : s'.params = s.params) (h2 : s'.catchingUp = s.catchingUp) (h3 : s'.armed = s.armed)
    (h4 : s'.role = s.role) (h5 : s'.prevote = s.prevote) : Stand P s s' := by
  rintro ⟨g1, g2⟩
  refine ⟨⟨h1.trans g1, h2.trans g2⟩, ?_⟩
  unfold Srv.Tries Srv.asking
  rw [h3, h4, h5]
  exact fun h => h
theorem sd_mod {f : Srv → Srv} (h : ∀ s, (f s).params = s.params ∧ (f s).catchingUp = s.catchingUp ∧ (f s).armed = s.armed ∧
    (f s).role = s.role ∧ (f s).prevote = s.prevote) : Goes (Stand P) (modify f : R PUnit) := fun s _ =>
  sd_same (h s).1 (h s).2.1 (h s).2.2.1 (h s).2.2.2.1 (h s).2.2.2.2
theorem sd_emit (e : Eff) : Goes (Stand P) (emit e) := fun s _ => sd_same rfl rfl rfl rfl rfl
theorem sd_modPeer (r : PeerRef) (f : Peer → Peer) : Goes (Stand P) (modPeer r f) := fun s _ => by
  cases r <;> exact sd_same rfl rfl rfl rfl rfl

/-- The process does not go on. -/
theorem die_not {c : Int} {s : Srv} : ¬ Lives (die c s : Except Fault α × Srv).1 := by
  rintro (⟨a, h⟩ | h) <;> cases h
theorem sd_die (c : Int) : Goes (Stand P) (die c : R α) := fun s h => absurd h die_not

theorem makes_goes {m : R α} (h : Makes P m) : Goes (Stand P) m := fun s hl hb => ⟨(h s hl hb).1, fun _ => (h s hl hb).2⟩

theorem makes_after {m : R α} {k : α → R β} (h1 : Makes P m) (h2 : ∀ a, Goes (Stand P) (k a)) : Makes P (m >>= k) := by
  intro s hl hb
  have e1 := h1 s
  rw [run_bind] at hl ⊢
  rcases hm : m s with ⟨a | a, s'⟩
  · rw [hm] at e1 hl
    refine e1 ?_ hb
    rcases hl with ⟨b, hb⟩ | hb
    · cases hb
    · right; cases hb; rfl
  · rw [hm] at e1 hl
    obtain ⟨e2, e3⟩ := e1 lives_ok hb
    exact ⟨(h2 a s' hl e2).1, (h2 a s' hl e2).2 e3⟩

theorem makes_before {m : R α} {k : α → R β} (h1 : SameAim P m) (h2 : ∀ a, Makes P (k a)) : Makes P (m >>= k) := by
  intro s hl hb
  obtain ⟨e0, e1⟩ := h1 s
  rw [run_bind] at hl ⊢
  rcases hm : m s with ⟨a | a, s'⟩
  · rw [hm] at e0 hl
    rcases hl with ⟨b, hb⟩ | hb
    · cases hb
    · cases hb; exact absurd rfl e0
  · rw [hm] at e1 hl
    exact h2 a s' hl (e1 lives_ok hb)

theorem aim_bind {m : R α} {k : α → R β} (h1 : SameAim P m) (h2 : ∀ a, SameAim P (k a)) : SameAim P (m >>= k) := by
  intro s
  obtain ⟨e0, e1⟩ := h1 s
  rw [run_bind]
  rcases hm : m s with ⟨a | a, s'⟩
  · rw [hm] at e0 e1
    refine ⟨fun h => e0 (by cases h; rfl), fun hl => e1 ?_⟩
    rcases hl with ⟨b, hb⟩ | hb
    · cases hb
    · right; cases hb; rfl
  · rw [hm] at e1
    exact ⟨(h2 a s').1, fun hl hb => (h2 a s').2 hl (e1 lives_ok hb)⟩
theorem aim_pure (a : α) : SameAim P (pure a : R α) := fun s => ⟨fun h => (by cases h), fun _ h => h⟩
theorem aim_get : SameAim P (get : R Srv) := fun s => ⟨fun h => (by cases h), fun _ h => h⟩
theorem aim_mod {f : Srv → Srv} (h : ∀ s, (f s).params = s.params ∧ (f s).catchingUp = s.catchingUp) :
    SameAim P (modify f : R PUnit) := fun s => ⟨fun e => (by cases e), fun _ hb => ⟨(h s).1.trans hb.1, (h s).2.trans hb.2⟩⟩
theorem aim_emit (e : Eff) : SameAim P (emit e) := aim_mod fun _ => ⟨rfl, rfl⟩
theorem aim_modPeer (r : PeerRef) (f : Peer → Peer) : SameAim P (modPeer r f) :=
  aim_mod fun s => by cases r <;> exact ⟨rfl, rfl⟩
theorem aim_die (c : Int) : SameAim P (die c : R α) := fun s => ⟨fun h => (by cases h), fun hl => absurd hl die_not⟩
theorem aim_ite {c : Prop} [Decidable c] {a b : R α} (h1 : SameAim P a) (h2 : SameAim P b) : SameAim P (if c then a else b) := by
  split <;> assumption
theorem aim_forEach {f : α → R Unit} (hf : ∀ a, SameAim P (f a)) : ∀ as, SameAim P (forEach f as)
  | [] => aim_pure ()
  | a :: as => aim_bind (hf a) fun _ => aim_forEach hf as

/-- The primitive updates. -/
macro "sd" : tactic => `(tactic| first | exact sd_mod fun _ => ⟨rfl, rfl, rfl, rfl, rfl⟩ | exact sd_mod fun _ => (by split <;> exact ⟨rfl, rfl, rfl, rfl, rfl⟩) | exact sd_same rfl rfl rfl rfl rfl | (intro _ _; exact sd_same rfl rfl rfl rfl rfl))

theorem sd_saveState  : Goes (Stand P) (saveState) := by
  unfold saveState
  goes using sd_emit
  all_goals sd
theorem sd_getPeer (r : PeerRef) : Goes (Stand P) (getPeer r) := by
  unfold getPeer
  goes using sd_emit
  all_goals sd
theorem sd_peerIds  : Goes (Stand P) (peerIds) := by
  unfold peerIds
  goes using sd_emit
  all_goals sd
theorem sd_logAppend (e : Entry) : Goes (Stand P) (logAppend e) := by
  unfold logAppend
  goes using sd_emit
  all_goals sd
theorem sd_logWriteAt (i : Nat) (e : Entry) : Goes (Stand P) (logWriteAt i e) := by
  unfold logWriteAt
  goes using sd_emit
  all_goals sd
theorem sd_termAt (i : Nat) : Goes (Stand P) (termAt i) := by
  unfold termAt
  goes using sd_emit
  all_goals sd
theorem sd_entryAt (i : Nat) : Goes (Stand P) (entryAt i) := by
  unfold entryAt
  goes using sd_emit
  all_goals sd
theorem sd_entryToApply (i : Nat) : Goes (Stand P) (entryToApply i) := by
  unfold entryToApply
  goes using sd_die
  all_goals sd
theorem sd_logApplyPack (i : Nat) (es : List Entry) : Goes (Stand P) (logApplyPack i es) := by
  unfold logApplyPack
  goes using sd_emit
  all_goals sd
theorem sd_logCompact (i : Nat) : Goes (Stand P) (logCompact i) := by
  unfold logCompact
  goes using sd_emit
  all_goals sd
theorem sd_termForLog (i : Nat) : Goes (Stand P) (termForLog i) := by
  unfold termForLog
  goes using sd_die, sd_termAt
  all_goals sd
theorem makes_restart : Makes P restartElectionTimer := by
  intro s _ hb
  have e : restartElectionTimer s = (.ok ⟨⟩, { s with armed := true }) := by
    unfold restartElectionTimer
    show (if s.catchingUp = true then (pure () : R Unit) else modify fun s => { s with armed := true }) s = _
    rw [if_neg (by rw [hb.2]; exact Bool.false_ne_true)]; rfl
  rw [e]
  exact ⟨hb, .inl rfl⟩
theorem sd_restartElectionTimer : Goes (Stand P) restartElectionTimer := makes_goes makes_restart
theorem sd_enableHb (r : PeerRef) : Goes (Stand P) (enableHb r) := by
  unfold enableHb
  goes using sd_modPeer
  all_goals sd
theorem makes_becomeFollower : Makes P becomeFollower := by
  unfold becomeFollower
  refine makes_before (aim_mod fun _ => ⟨rfl, rfl⟩) fun _ => ?_
  refine makes_before (aim_mod fun _ => ⟨rfl, rfl⟩) fun _ => ?_
  refine makes_before (aim_mod fun _ => ⟨rfl, rfl⟩) fun _ => ?_
  refine makes_before (aim_mod fun _ => ⟨rfl, rfl⟩) fun _ => ?_
  exact makes_after makes_restart fun _ => sd_emit _
theorem sd_becomeFollower : Goes (Stand P) becomeFollower := makes_goes makes_becomeFollower
theorem sd_updateTerm (term : Nat) : Goes (Stand P) (updateTerm term) := by
  unfold updateTerm
  goes using sd_saveState, sd_becomeFollower
  all_goals sd
theorem sd_chooseSnap (r : PeerRef) (lastIdx : Nat) : Goes (Stand P) (chooseSnap r lastIdx) := by
  unfold chooseSnap
  goes using sd_die, sd_modPeer, sd_getPeer
  all_goals sd
theorem sd_createSyncSnapshotReq (r : PeerRef) (lastIdx term commitIdx : Nat) : Goes (Stand P) (createSyncSnapshotReq r lastIdx term commitIdx) := by
  unfold createSyncSnapshotReq
  goes using sd_die, sd_getPeer, sd_chooseSnap
  all_goals sd
theorem sd_entriesFrom (last : Nat) : Goes (Stand P) (entriesFrom last) := by
  unfold entriesFrom
  goes using sd_emit
  all_goals sd
theorem sd_appendReqFrom (r : PeerRef) (last : Nat) : Goes (Stand P) (appendReqFrom r last) := by
  unfold appendReqFrom
  goes using sd_getPeer, sd_termForLog, sd_entriesFrom
  all_goals sd
theorem sd_createAppendReq (r : PeerRef) : Goes (Stand P) (createAppendReq r) := by
  unfold createAppendReq
  goes using sd_die, sd_modPeer, sd_getPeer, sd_createSyncSnapshotReq, sd_appendReqFrom
  all_goals sd
theorem sd_requestAppend (r : PeerRef) : Goes (Stand P) (requestAppend r) := by
  unfold requestAppend
  goes using sd_emit, sd_modPeer, sd_getPeer, sd_createAppendReq
  all_goals sd
theorem sd_commitNotify (id : Int) : Goes (Stand P) (commitNotify id) := by
  unfold commitNotify
  goes using sd_modPeer, sd_requestAppend
  all_goals sd
theorem sd_commit (target : Nat) : Goes (Stand P) (commit target) := by
  unfold commit
  goes using sd_emit, sd_peerIds, sd_commitNotify
  all_goals sd
theorem sd_requestAppendTo (id : Int) : Goes (Stand P) (requestAppendTo id) := by
  unfold requestAppendTo
  goes using sd_requestAppend
  all_goals sd
theorem sd_requestAppendAll  : Goes (Stand P) (requestAppendAll) := by
  unfold requestAppendAll
  goes using sd_peerIds, sd_commit, sd_requestAppendTo
  all_goals sd
theorem sd_leaderPeer (id : Int) : Goes (Stand P) (leaderPeer id) := by
  unfold leaderPeer
  goes using sd_modPeer, sd_enableHb
  all_goals sd
theorem sd_initialConf  : Goes (Stand P) (initialConf) := by
  unfold initialConf
  goes using sd_logAppend
  all_goals sd
theorem makes_becomeLeader : Makes P becomeLeader := by
  unfold becomeLeader
  refine makes_before (aim_mod fun _ => ⟨rfl, rfl⟩) fun _ => ?_
  refine makes_before aim_get fun s0 => ?_
  refine makes_after (fun s _ hb => ⟨hb, .inr (.inl rfl)⟩) fun _ => ?_
  goes using sd_emit, sd_peerIds, sd_leaderPeer, sd_initialConf, sd_requestAppendAll
  all_goals sd
theorem sd_becomeLeader : Goes (Stand P) becomeLeader := makes_goes makes_becomeLeader
theorem sd_askVote (ty : MsgType) (id : Int) : Goes (Stand P) (askVote ty id) := by
  unfold askVote
  goes using sd_emit, sd_termForLog
  all_goals sd
theorem last_present (s : Srv) (h : s.log.start ≤ s.log.next - 1) (h0 : s.log.next - 1 ≠ 0) :
    ∃ e, s.log.get? (s.log.next - 1) = some e := by
  unfold Log.get?
  rw [if_neg (by omega)]
  unfold Log.next at h h0 ⊢
  exact ⟨_, List.getElem?_eq_getElem (by omega)⟩
theorem aim_askVote (ty : MsgType) (id : Int) : SameAim P (askVote ty id) := by
  intro s
  have h1 : (termForLog (s.log.next - 1) s).1 ≠ .error .thrown ∧ (∀ t, (termForLog (s.log.next - 1) s).1 = .ok t →
      (termForLog (s.log.next - 1) s).2 = s) := by
    unfold termForLog
    rw [bind_get]
    by_cases h0 : s.log.next - 1 = 0
    · rw [if_pos h0]; exact ⟨fun h => (by cases h), fun _ _ => rfl⟩
    rw [if_neg h0]
    by_cases h2 : s.log.start ≤ s.log.next - 1
    · rw [if_pos h2]
      obtain ⟨e, he⟩ := last_present s h2 h0
      unfold termAt
      rw [bind_get, he]
      exact ⟨fun h => (by cases h), fun _ _ => rfl⟩
    rw [if_neg h2]
    cases s.smSnap with
    | none => exact ⟨fun h => (by cases h), fun _ h => (by cases h)⟩
    | some snp =>
      by_cases h3 : s.log.next - 1 ≠ snp.lastIdx
      · dsimp only
        rw [if_pos h3]; exact ⟨fun h => (by cases h), fun _ h => (by cases h)⟩
      · dsimp only
        rw [if_neg h3]; exact ⟨fun h => (by cases h), fun _ _ => rfl⟩
  unfold askVote
  rw [bind_get, run_bind]
  rcases hm : termForLog (s.log.next - 1) s with ⟨a | a, s'⟩
  · rw [hm] at h1
    refine ⟨fun h => h1.1 (by cases h; rfl), fun hl => ?_⟩
    rcases hl with ⟨b, hb⟩ | hb
    · cases hb
    · cases hb; exact absurd rfl h1.1
  · rw [hm] at h1
    have := h1.2 a rfl
    subst this
    exact ⟨fun h => (by cases h), fun _ hb => hb⟩
theorem aim_peerIds : SameAim P peerIds := aim_bind aim_get fun _ => aim_pure _
theorem aim_saveState : SameAim P saveState := aim_bind aim_get fun _ => aim_emit _
theorem makes_rearm : Makes P rearm := by
  intro s hl hb
  unfold rearm at hl ⊢
  rw [bind_get] at hl ⊢
  by_cases h : s.role ≠ .leader
  · rw [if_pos h] at hl ⊢; exact makes_restart s hl hb
  · rw [if_neg h] at hl ⊢; exact ⟨hb, .inr (.inl (Classical.not_not.1 h))⟩
theorem makes_askForVotes : Makes P (askForVotes >>= fun _ => rearm) := by
  intro s hl hb
  unfold askForVotes at hl ⊢
  rw [bind_assoc, bind_get] at hl ⊢
  by_cases h : (s.peers.length + 1) / 2 < s.votesGranted
  · rw [if_pos h] at hl ⊢
    exact makes_after (makes_before (aim_mod (by intro _; exact ⟨rfl, rfl⟩)) fun _ => makes_becomeLeader) (fun _ => makes_goes makes_rearm) s hl hb
  · rw [if_neg h] at hl ⊢
    exact makes_before (aim_bind aim_peerIds fun _ => aim_forEach (fun _ => aim_askVote _ _) _) (fun _ => makes_rearm) s hl hb
theorem makes_becomeCandidate : Makes P becomeCandidate := by
  unfold becomeCandidate startTerm requestVote voteSelf
  rw [bind_assoc]
  refine makes_before (aim_mod fun _ => ⟨rfl, rfl⟩) fun _ => ?_
  rw [bind_assoc]
  refine makes_before (aim_mod fun _ => ⟨rfl, rfl⟩) fun _ => ?_
  rw [bind_assoc]
  refine makes_before (aim_mod fun _ => ⟨rfl, rfl⟩) fun _ => ?_
  rw [bind_assoc]
  refine makes_before (aim_mod fun _ => ⟨rfl, rfl⟩) fun _ => ?_
  refine makes_before aim_saveState fun _ => ?_
  rw [bind_assoc]
  refine makes_before (aim_bind (aim_mod fun _ => ⟨rfl, rfl⟩) fun _ => aim_bind aim_saveState fun _ =>
    aim_bind (aim_mod fun _ => ⟨rfl, rfl⟩) fun _ => aim_mod fun _ => ⟨rfl, rfl⟩) fun _ => ?_
  exact makes_askForVotes
theorem sd_becomeCandidate : Goes (Stand P) becomeCandidate := makes_goes makes_becomeCandidate
theorem makes_requestPrevote (hp : P.prevote = true) : Makes P requestPrevote := by
  intro s hl hb
  unfold requestPrevote at hl ⊢
  rw [bind_get] at hl ⊢
  by_cases h : s.peers = []
  · rw [if_pos h] at hl ⊢; exact makes_becomeCandidate s hl hb
  rw [if_neg h] at hl ⊢
  refine makes_after (fun s _ hb => ⟨hb, .inr (.inr ⟨hp, ?_⟩)⟩) (fun _ => ?_) s hl hb
  · show ∃ v n, (match s.prevote with
      | none => some ([s.id], 1)
      | some (v, n) => some (addPrevoter v s.id, n + 1)) = some (v, n) ∧ v ≠ []
    cases s.prevote with
    | none => exact ⟨_, _, rfl, List.cons_ne_nil _ _⟩
    | some q =>
      refine ⟨_, _, rfl, ?_⟩
      unfold addPrevoter
      by_cases hm : s.id ∈ q.1
      · rw [if_pos hm]; exact List.ne_nil_of_mem hm
      · rw [if_neg hm]; exact List.cons_ne_nil _ _
  · goes using sd_peerIds, sd_askVote
theorem sd_leaveConfig  : Goes (Stand P) (leaveConfig) := by
  unfold leaveConfig
  goes using sd_emit
  all_goals sd
theorem makes_handleElectionTimeout : Makes P handleElectionTimeout := by
  unfold handleElectionTimeout
  refine makes_before (aim_mod fun _ => ⟨rfl, rfl⟩) fun _ => ?_
  intro s hl hb
  rw [bind_get] at hl ⊢
  by_cases h1 : 0 < s.stepsToDown
  · rw [if_pos h1] at hl ⊢
    refine makes_before (aim_mod (by intro _; exact ⟨rfl, rfl⟩)) (fun _ => ?_) s hl hb
    split
    · intro s hl hb
      rw [run_bind] at hl ⊢
      have hn : (leaveConfig s).1 = .ok ⟨⟩ := by
        unfold leaveConfig
        rw [bind_get]
        by_cases h : s.config.has s.id = true
        · rw [if_pos h]; rfl
        · rw [if_neg h]; rfl
      rcases hm : leaveConfig s with ⟨a | a, s'⟩
      · rw [hm] at hn; cases hn
      · rw [hm] at hl; exact absurd hl die_not
    · exact makes_restart
  rw [if_neg h1] at hl ⊢
  by_cases h2 : s.catchingUp = true
  · rw [if_pos h2] at hl ⊢; exact makes_restart s hl hb
  rw [if_neg h2] at hl ⊢
  by_cases h3 : s.role = .leader
  · rw [if_pos h3] at hl; exact absurd hl die_not
  rw [if_neg h3] at hl ⊢
  by_cases h4 : s.params.prevote = true ∧ s.role = .follower
  · have hp : P.prevote = true := by rw [← hb.1]; exact h4.1
    rw [if_pos h4] at hl ⊢
    rcases hv : s.prevote with _ | ⟨v, n⟩
    · rw [hv] at hl
      exact makes_requestPrevote hp s hl hb
    · rw [hv] at hl
      dsimp only at hl ⊢
      by_cases h5 : (!v.isEmpty) = true
      · rw [if_pos h5] at hl ⊢
        exact ⟨hb, .inr (.inr ⟨hp, v, n, hv, fun h => by subst h; cases h5⟩)⟩
      · rw [if_neg h5] at hl ⊢
        exact makes_requestPrevote hp s hl hb
  rw [if_neg h4] at hl ⊢
  exact makes_becomeCandidate s hl hb
theorem sd_handleElectionTimeout : Goes (Stand P) handleElectionTimeout := makes_goes makes_handleElectionTimeout
theorem sd_handleHbTimeout (r : PeerRef) : Goes (Stand P) (handleHbTimeout r) := by
  unfold handleHbTimeout
  goes using sd_modPeer, sd_requestAppend
  all_goals sd
theorem sd_skipSame (idx : Nat) (es : List Entry) : Goes (Stand P) (skipSame idx es) := by
  induction es generalizing idx with
  | nil => exact goes_pure _
  | cons e es ih =>
    unfold skipSame
    goes using sd_termAt, ih
theorem sd_rollbackOld (idx : Nat) : Goes (Stand P) (rollbackOld idx) := by
  unfold rollbackOld
  goes using sd_emit, sd_entryAt
  all_goals sd
theorem sd_noteNew (idx : Nat) (e : Entry) : Goes (Stand P) (noteNew idx e) := by
  unfold noteNew
  goes using sd_emit
  all_goals sd
theorem sd_overwriteOld (idx : Nat) (es : List Entry) : Goes (Stand P) (overwriteOld idx es) := by
  induction es generalizing idx with
  | nil => exact goes_pure _
  | cons e es ih =>
    unfold overwriteOld
    goes using sd_rollbackOld, sd_noteNew, sd_logWriteAt, sd_emit, ih
theorem sd_appendNew (es : List Entry) : Goes (Stand P) (appendNew es) := by
  induction es with
  | nil => exact goes_pure _
  | cons e es ih =>
    unfold appendNew
    goes using sd_logAppend, sd_noteNew, sd_emit, ih
theorem sd_storeEntries (req : Req) : Goes (Stand P) (storeEntries req) := by
  unfold storeEntries
  goes using sd_skipSame, sd_overwriteOld, sd_appendNew
  all_goals sd
theorem sd_hearLeader (req : Req) : Goes (Stand P) (hearLeader req) := by
  unfold hearLeader
  goes using sd_die, sd_restartElectionTimer, sd_becomeFollower
  all_goals sd
theorem sd_logOkay (req : Req) : Goes (Stand P) (logOkay req) := by
  unfold logOkay
  goes using sd_termForLog
  all_goals sd
theorem sd_handleAppendEntries (req : Req) : Goes (Stand P) (handleAppendEntries req) := by
  unfold handleAppendEntries
  goes using sd_commit, sd_storeEntries, sd_hearLeader, sd_logOkay
  all_goals sd
theorem sd_handleVoteReq (req : Req) : Goes (Stand P) (handleVoteReq req) := by
  unfold handleVoteReq
  goes using sd_saveState
  all_goals sd
theorem sd_handlePrevoteReq (req : Req) : Goes (Stand P) (handlePrevoteReq req) := by
  unfold handlePrevoteReq
  goes using sd_emit
  all_goals sd
theorem sd_isLeader  : Goes (Stand P) (isLeader) := by
  unfold isLeader
  goes using sd_emit
  all_goals sd
theorem sd_appendClient (es : List Entry) : Goes (Stand P) (appendClient es) := by
  induction es with
  | nil => exact goes_pure _
  | cons e es ih =>
    unfold appendClient
    goes using sd_logAppend, sd_noteNew, sd_emit, ih
theorem sd_handleCliReq (req : Req) : Goes (Stand P) (handleCliReq req) := by
  unfold handleCliReq
  goes using sd_requestAppendAll, sd_isLeader, sd_appendClient
  all_goals sd
theorem sd_addPeer (c : SrvCfg) : Goes (Stand P) (addPeer c) := by
  unfold addPeer
  goes using sd_enableHb, sd_modPeer
  all_goals sd
theorem aim_enableHb (r : PeerRef) : SameAim P (enableHb r) := aim_bind aim_get fun _ => aim_modPeer _ _
theorem aim_addPeer (c : SrvCfg) : SameAim P (addPeer c) := by
  unfold addPeer
  refine aim_bind (aim_mod fun _ => by split <;> exact ⟨rfl, rfl⟩) fun _ => aim_bind aim_get fun s => aim_ite ?_ (aim_pure _)
  refine aim_bind (aim_enableHb _) fun _ => ?_
  split
  · exact aim_ite (aim_bind (aim_modPeer _ _) fun _ => aim_mod fun _ => ⟨rfl, rfl⟩) (aim_pure _)
  · exact aim_pure _
theorem aim_removePeer (c : Config) (id : Int) : SameAim P (removePeer c id) := by
  unfold removePeer
  exact aim_bind aim_get fun s => aim_ite (aim_bind (aim_emit _) fun _ => aim_die _) (aim_mod fun _ => ⟨rfl, rfl⟩)
theorem aim_reconfigure (c : Config) : SameAim P (reconfigure c) := by
  unfold reconfigure
  exact aim_bind aim_get fun s => aim_bind (aim_forEach (fun _ => aim_addPeer _) _) fun _ =>
    aim_bind (aim_forEach (fun _ => aim_removePeer _ _) _) fun _ => aim_mod fun _ => ⟨rfl, rfl⟩
theorem sd_removePeer (c : Config) (id : Int) : Goes (Stand P) (removePeer c id) := by
  unfold removePeer
  goes using sd_emit, sd_die
  all_goals sd
theorem sd_reconfigure (c : Config) : Goes (Stand P) (reconfigure c) := by
  unfold reconfigure
  goes using sd_addPeer, sd_removePeer
  all_goals sd
theorem sd_installSnapshot (snp : Snap) : Goes (Stand P) (installSnapshot snp) := by
  unfold installSnapshot
  refine goes_bind goes_get fun s => goes_ite (sd_die _) (goes_bind (sd_logCompact _) fun ok => goes_ite ?_ (goes_pure _))
  refine makes_goes ?_
  refine makes_before (aim_mod fun _ => ⟨rfl, rfl⟩) fun _ => makes_before (aim_emit _) fun _ => ?_
  by_cases h : s.env.applySnp snp = false
  · rw [if_pos h]; exact fun s hl => absurd hl die_not
  rw [if_neg h]
  refine makes_before (aim_mod fun _ => ⟨rfl, rfl⟩) fun _ => makes_before (aim_reconfigure _) fun _ => ?_
  refine makes_before aim_get fun _ => makes_before (aim_emit _) fun _ => makes_before (aim_mod fun _ => ⟨rfl, rfl⟩) fun _ => ?_
  refine makes_before aim_saveState fun _ => makes_before (aim_mod fun _ => ⟨rfl, rfl⟩) fun _ => ?_
  exact makes_after makes_restart fun _ => goes_pure _
theorem sd_handleSnapshotSync (q : SnpSync) : Goes (Stand P) (handleSnapshotSync q) := by
  unfold handleSnapshotSync
  goes using sd_emit, sd_die, sd_installSnapshot
  all_goals sd
theorem sd_hearSnapshotLeader (req : Req) : Goes (Stand P) (hearSnapshotLeader req) := by
  unfold hearSnapshotLeader
  goes using sd_die, sd_restartElectionTimer, sd_becomeFollower
  all_goals sd
theorem sd_handleInstallSnapshot (req : Req) : Goes (Stand P) (handleInstallSnapshot req) := by
  unfold handleInstallSnapshot
  goes using sd_handleSnapshotSync, sd_hearSnapshotLeader
  all_goals sd
theorem sd_handleRmSrv (req : Req) : Goes (Stand P) (handleRmSrv req) := by
  unfold handleRmSrv
  goes using sd_emit
  all_goals sd
theorem sd_inviteSrv  : Goes (Stand P) (inviteSrv) := by
  unfold inviteSrv
  goes using sd_emit, sd_getPeer
  all_goals sd
theorem sd_handleAddSrv (req : Req) : Goes (Stand P) (handleAddSrv req) := by
  unfold handleAddSrv
  goes using sd_inviteSrv
  all_goals sd
theorem sd_handleLogSync (req : Req) : Goes (Stand P) (handleLogSync req) := by
  unfold handleLogSync
  goes using sd_logApplyPack, sd_commit
  all_goals sd
theorem sd_handleLeave (req : Req) : Goes (Stand P) (handleLeave req) := by
  unfold handleLeave
  goes using sd_emit
  all_goals sd
theorem sd_hearTerm (req : Req) : Goes (Stand P) (hearTerm req) := by
  unfold hearTerm
  goes using sd_updateTerm
  all_goals sd
theorem sd_acceptedResp (resp : Resp) : Goes (Stand P) (acceptedResp resp) := by
  unfold acceptedResp
  goes using sd_modPeer, sd_getPeer, sd_commit
  all_goals sd
theorem sd_refusedResp (resp : Resp) : Goes (Stand P) (refusedResp resp) := by
  unfold refusedResp
  goes using sd_modPeer
  all_goals sd
theorem sd_handleAppendResp (resp : Resp) : Goes (Stand P) (handleAppendResp resp) := by
  unfold handleAppendResp
  goes using sd_requestAppendTo, sd_acceptedResp, sd_refusedResp
  all_goals sd
theorem sd_acceptedSnpResp (resp : Resp) : Goes (Stand P) (acceptedSnpResp resp) := by
  unfold acceptedSnpResp
  goes using sd_modPeer, sd_getPeer
  all_goals sd
theorem sd_handleSnpResp (resp : Resp) : Goes (Stand P) (handleSnpResp resp) := by
  unfold handleSnpResp
  goes using sd_requestAppendTo, sd_acceptedSnpResp
  all_goals sd
theorem sd_handleVotingResp (resp : Resp) : Goes (Stand P) (handleVotingResp resp) := by
  unfold handleVotingResp
  goes using sd_becomeLeader
  all_goals sd
theorem sd_dispatchResp (resp : Resp) : Goes (Stand P) (dispatchResp resp) := by
  unfold dispatchResp
  goes using sd_die, sd_handleAppendResp, sd_handleSnpResp, sd_handleVotingResp
  all_goals sd
theorem sd_handlePeerResp (resp : Resp) : Goes (Stand P) (handlePeerResp resp) := by
  unfold handlePeerResp
  goes using sd_modPeer, sd_updateTerm, sd_dispatchResp
  all_goals sd
theorem sd_handlePrevoteResp (resp : Resp) : Goes (Stand P) (handlePrevoteResp resp) := by
  intro s hl
  unfold handlePrevoteResp at hl ⊢
  rw [bind_get] at hl ⊢
  rcases hp : s.prevote with _ | ⟨v, n⟩
  · exact stand_refl s
  rw [hp] at hl
  dsimp only at hl ⊢
  by_cases h1 : resp.src ∈ v
  · rw [if_pos h1] at hl ⊢; exact stand_refl s
  rw [if_neg h1] at hl ⊢
  rw [bind_modify] at hl ⊢
  refine stand_trans (b := { s with prevote := some (resp.src :: v, if resp.accepted = true then n + 1 else n) }) ?_ ?_
  · rintro hb
    refine ⟨hb, ?_⟩
    rintro (h | h | ⟨h, _⟩)
    · exact .inl h
    · exact .inr (.inl h)
    · exact .inr (.inr ⟨h, _, _, rfl, List.cons_ne_nil _ _⟩)
  · exact goes_ite sd_becomeCandidate (goes_ite (makes_goes (makes_before (aim_mod (by intro _; exact ⟨rfl, rfl⟩)) fun _ => makes_restart)) (goes_pure _)) _ hl
theorem sd_addToConfig  : Goes (Stand P) (addToConfig) := by
  unfold addToConfig
  goes using sd_logAppend, sd_requestAppendAll
  all_goals sd
theorem sd_syncLogToNewSrv (start : Nat) : Goes (Stand P) (syncLogToNewSrv start) := by
  unfold syncLogToNewSrv
  goes using sd_emit, sd_getPeer, sd_createSyncSnapshotReq, sd_addToConfig
  all_goals sd
theorem sd_rmSrvFromCluster (id : Int) : Goes (Stand P) (rmSrvFromCluster id) := by
  unfold rmSrvFromCluster
  goes using sd_logAppend, sd_requestAppendAll
  all_goals sd
theorem sd_handleExtSnpResp (resp : Resp) : Goes (Stand P) (handleExtSnpResp resp) := by
  unfold handleExtSnpResp
  goes using sd_die, sd_modPeer, sd_getPeer, sd_syncLogToNewSrv
  all_goals sd
theorem sd_handleExtResp (resp : Resp) : Goes (Stand P) (handleExtResp resp) := by
  unfold handleExtResp
  goes using sd_die, sd_modPeer, sd_handlePrevoteResp, sd_syncLogToNewSrv, sd_rmSrvFromCluster, sd_handleExtSnpResp
  all_goals sd
theorem sd_forceRemove (id : Int) : Goes (Stand P) (forceRemove id) := by
  unfold forceRemove
  goes using sd_rmSrvFromCluster
  all_goals sd
theorem sd_handleExtErr (req : Req) : Goes (Stand P) (handleExtErr req) := by
  unfold handleExtErr
  goes using sd_modPeer, sd_forceRemove
  all_goals sd
theorem sd_retryReq (req : Req) : Goes (Stand P) (retryReq req) := by
  unfold retryReq
  goes using sd_emit
  all_goals sd
theorem sd_rpcResult (r : PeerRef) (ty : MsgType) (ok : Bool) : Goes (Stand P) (rpcResult r ty ok) := by
  unfold rpcResult
  goes using sd_modPeer
  all_goals sd
theorem sd_commitConf (c : Config) : Goes (Stand P) (commitConf c) := by
  unfold commitConf
  goes using sd_emit, sd_reconfigure
  · sd
  all_goals
    intro s _ hb
    have : (if c.has s.id = true then false else s.catchingUp) = false := by split; rfl; exact hb.2
    exact ⟨⟨hb.1, this⟩, fun h => h⟩
theorem sd_findConf (idx n : Nat) (c : Config) : Goes (Stand P) (findConf idx n c) := by
  induction n generalizing c with
  | zero => exact goes_throw _
  | succ n ih =>
    unfold findConf
    goes using sd_entryAt, sd_die, ih
theorem sd_confForSnap (idx : Nat) : Goes (Stand P) (confForSnap idx) := by
  unfold confForSnap
  goes using sd_die, sd_findConf
  all_goals sd
theorem sd_startSnapshot (idx : Nat) : Goes (Stand P) (startSnapshot idx) := by
  unfold startSnapshot
  goes using sd_emit, sd_termAt, sd_confForSnap
  all_goals sd
theorem sd_snapshotAndCompact (idx : Nat) : Goes (Stand P) (snapshotAndCompact idx) := by
  unfold snapshotAndCompact
  goes using sd_startSnapshot
  all_goals sd
theorem sd_keepSnap (snp : Snap) : Goes (Stand P) (keepSnap snp) := by
  unfold keepSnap
  goes using sd_emit
  all_goals sd
theorem sd_onSnapshotCompleted (snp : Snap) (ok : Bool) : Goes (Stand P) (onSnapshotCompleted snp ok) := by
  unfold onSnapshotCompleted
  goes using sd_logCompact
  all_goals sd
theorem sd_applyEntry (i : Nat) (e : Entry) : Goes (Stand P) (applyEntry i e) := by
  unfold applyEntry
  goes using sd_emit, sd_commitConf
  all_goals sd
theorem sd_applyOne  : Goes (Stand P) (applyOne) := by
  unfold applyOne
  goes using sd_entryToApply, sd_snapshotAndCompact, sd_applyEntry
  all_goals sd
theorem sd_replicateLog (data : Nat) : Goes (Stand P) (replicateLog data) := by
  unfold replicateLog
  goes using sd_logAppend, sd_requestAppendAll, sd_isLeader
  all_goals sd

theorem sd_dispatch {r : Req} (hr : r.type ≠ .joinReq) : Goes (Stand P) (dispatch r) := by
  unfold dispatch handleExtended
  split
  · exact sd_handleAppendEntries r
  · exact sd_handleVoteReq r
  · exact sd_handleCliReq r
  · split
    · exact sd_handleAddSrv r
    · exact sd_handleRmSrv r
    · exact sd_handleLogSync r
    · rename_i h; exact absurd h hr
    · exact sd_handleLeave r
    · exact sd_handleInstallSnapshot r
    · exact sd_handlePrevoteReq r
    · exact sd_die _

/-- Every input but an invitation. -/
theorem sd_run {x : Input} (hx : x.isJoin = false) : Goes (Stand P) x.run := by
  cases x with
  | req r =>
    have hr : r.type ≠ .joinReq := fun h => by
      have : (r.type == .joinReq) = false := hx
      rw [h] at this; cases this
    exact goes_bind (goes_bind (sd_hearTerm r) fun _ => sd_dispatch hr) fun q => sd_emit _
  | peerResp ty r => exact goes_bind (sd_rpcResult _ _ _) fun _ => sd_handlePeerResp r
  | extResp p ty r => exact goes_bind (sd_rpcResult _ _ _) fun _ => sd_handleExtResp r
  | peerErr r => exact sd_rpcResult _ _ _
  | extErr p r => exact goes_bind (sd_rpcResult _ _ _) fun _ => sd_handleExtErr r
  | retry r => exact sd_retryReq r
  | electionTimeout => exact sd_handleElectionTimeout
  | hbTimeout id => exact sd_handleHbTimeout _
  | apply => exact sd_applyOne
  | snapDone q ok =>
    exact goes_ite (goes_bind (sd_keepSnap q) fun _ => sd_onSnapshotCompleted q true) (sd_onSnapshotCompleted q false)
  | replicate d => exact goes_bind (sd_replicateLog d) fun _ => goes_pure _
  | tick n => exact sd_mod fun _ => ⟨rfl, rfl, rfl, rfl, rfl⟩

end Cs.Raft
