import Verif.Raft.Waits
import Verif.Raft.PropsMember

/-!
# Configurations that are not applied yet bar further changes (C82)
-/

namespace Cs.Raft
open Cs

/-! ## Specification -/

/-- The log has a configuration at index `k` that has not been applied. -/
def Waiting (s : Srv) (k : Nat) : Prop := s.smCommit < k ∧ ∃ e, s.log.get? k = some e ∧ e.isConf = true

/-- At most one configuration waits. -/
def OneWaits (s : Srv) : Prop := ∀ j k, Waiting s j → Waiting s k → j = k

/-- Histories in which every running server that gets an input satisfies `P`. -/
inductive HistOf (c : Setup) (P : Srv → Prop) (n : Node) : List Input → List Eff → Node → Prop
  | nil : HistOf c P n [] [] n
  | step {n1 n2 : Node} {xs : List Input} {fx es : List Eff} {x : Option Input} :
      HistOf c P n xs fx n1 → (∀ s, n1.up = some s → P s) → n1.Step c x es n2 → HistOf c P n (xs ++ x.toList) (fx ++ es) n2

theorem HistOf.hist {c : Setup} {P : Srv → Prop} {n n' : Node} {xs : List Input} {fx : List Eff} (h : HistOf c P n xs fx n') :
    Hist c n xs fx n' := by
  induction h with
  | nil => exact .nil
  | step _ _ hs ih => exact .step ih hs

/-- Invitations and packs are for servers that join; the leader gives up a new server when it cannot be reached; clients send
commands. -/
def Input.settled : Input → Prop
  | .req r => r.type ≠ .joinReq ∧ r.type ≠ .syncReq ∧ (r.type = .clientReq → ∀ e ∈ r.entries, e.isApp = true)
  | .extErr _ r => r.type ≠ .joinReq ∧ r.type ≠ .syncReq
  | _ => True

/-! ## Steps -/

/-- The flag is set if a configuration waits. -/
def Flagged (s : Srv) : Prop := ∀ k, Waiting s k → s.configChanging = true

theorem WaitsEq.flagged {s s' : Srv} (h : WaitsEq s s') (hf : Flagged s) : Flagged s' := by
  rintro k ⟨h1, e, h2, h3⟩
  rcases h.2.2 k e h2 h3 h1 with hk | hk
  · exact h.2.1 (hf k ⟨by rw [← h.1]; exact h1, e, hk, h3⟩)
  · exact hk

/-- Log, applied index and flag stay. -/
def SameWait (s s' : Srv) : Prop := s'.smCommit = s.smCommit ∧ s'.configChanging = s.configChanging ∧ s'.log = s.log

theorem swPo : PO SameWait :=
  ⟨fun _ => ⟨rfl, rfl, rfl⟩, fun h1 h2 => ⟨h2.1.trans h1.1, h2.2.1.trans h1.2.1, h2.2.2.trans h1.2.2⟩⟩
theorem sw_mod {f : Srv → Srv} (h : ∀ s, SameWait s (f s)) : Pres SameWait (modify f : R PUnit) := fun s => h s
theorem sw_emit (e : Eff) : Pres SameWait (emit e) := fun _ => ⟨rfl, rfl, rfl⟩
/-- The primitive updates. -/
macro "sw" : tactic => `(tactic| first | exact sw_mod fun _ => ⟨rfl, rfl, rfl⟩ | exact sw_mod fun _ => (by split <;> exact ⟨rfl, rfl, rfl⟩) | exact ⟨rfl, rfl, rfl⟩ | (intro _; exact ⟨rfl, rfl, rfl⟩))
theorem sw_die {α : Type} (c : Int) : Pres SameWait (die c : R α) := fun _ => ⟨rfl, rfl, rfl⟩
theorem sw_saveState : Pres SameWait saveState := fun _ => ⟨rfl, rfl, rfl⟩
theorem sw_restart : Pres SameWait restartElectionTimer := by
  unfold restartElectionTimer
  pres swPo using sw_emit
  all_goals sw
theorem sw_becomeFollower : Pres SameWait becomeFollower := by
  unfold becomeFollower
  pres swPo using sw_emit, sw_restart, sw_saveState
  all_goals sw
theorem sw_updateTerm (t : Nat) : Pres SameWait (updateTerm t) := by
  unfold updateTerm
  pres swPo using sw_emit, sw_becomeFollower, sw_saveState
  all_goals sw
theorem sw_hearTerm (r : Req) : Pres SameWait (hearTerm r) := by
  unfold hearTerm
  pres swPo using sw_updateTerm
  all_goals sw
theorem sw_hearLeader (r : Req) : Pres SameWait (hearLeader r) := by
  unfold hearLeader
  pres swPo using sw_becomeFollower, sw_die, sw_restart
theorem sw_termAt (i : Nat) : Pres SameWait (termAt i) := by
  unfold termAt
  pres swPo using sw_die
theorem sw_termForLog (i : Nat) : Pres SameWait (termForLog i) := by
  unfold termForLog
  pres swPo using sw_termAt, sw_die
theorem sw_logOkay (r : Req) : Pres SameWait (logOkay r) := by
  unfold logOkay
  pres swPo using sw_termForLog
theorem sw_skipSame (idx : Nat) (es : List Entry) : Pres SameWait (skipSame idx es) := by
  induction es generalizing idx with
  | nil => exact pres_pure swPo _
  | cons e es ih =>
    unfold skipSame
    pres swPo using sw_termAt, ih

theorem SameWait.waiting {s s' : Srv} (h : SameWait s s') (k : Nat) : Waiting s' k ↔ Waiting s k := by
  unfold Waiting; rw [h.1, h.2.2]
theorem SameWait.one {s s' : Srv} (h : SameWait s s') (ho : OneWaits s) : OneWaits s' :=
  fun j k hj hk => ho j k ((h.waiting j).1 hj) ((h.waiting k).1 hk)
theorem SameWait.flagged {s s' : Srv} (h : SameWait s s') (hf : Flagged s) : Flagged s' :=
  fun k hk => by rw [h.2.1]; exact hf k ((h.waiting k).1 hk)

/-- What is proved of each step. -/
def Flags (s s' : Srv) : Prop := OneWaits s → Flagged s → Flagged s'

theorem flags_eq {α : Type} {m : R α} (h : Pres WaitsEq m) : Pres Flags m := fun s _ hf => (h s).flagged hf

/-- First a part that keeps all, then the rest. -/
theorem flags_same {α β : Type} {m : R α} {k : α → R β} (h1 : Pres SameWait m) (h2 : ∀ a, Pres Flags (k a)) : Pres Flags (m >>= k) := by
  intro s ho hf
  have e1 := h1 s
  rw [run_bind]
  rcases hm : m s with ⟨a | a, s'⟩
  · rw [hm] at e1; exact e1.flagged hf
  · rw [hm] at e1; exact h2 a s' (e1.one ho) (e1.flagged hf)

/-- First the part, then a rest that sets the flag as needed. -/
theorem flags_then {α β : Type} {m : R α} {k : α → R β} (h1 : Pres Flags m) (h2 : ∀ a, Pres WaitsEq (k a)) : Pres Flags (m >>= k) := by
  intro s ho hf
  have e1 := h1 s ho hf
  rw [run_bind]
  rcases hm : m s with ⟨a | a, s'⟩
  · rw [hm] at e1; exact e1
  · rw [hm] at e1; exact (h2 a s').flagged e1

theorem flags_overwriteOld (i : Nat) (es : List Entry) : Pres Flags (overwriteOld i es) := by
  cases es with
  | nil => exact fun s _ hf => hf
  | cons e es =>
    intro s ho hf
    by_cases h : i < s.log.next
    · rcases hg : s.log.get? i with _ | x
      · unfold overwriteOld
        rw [bind_get, if_pos h]
        unfold rollbackOld
        have he : entryAt i s = (.error (if i < s.log.start then .thrown else .ub), s) := by
          unfold entryAt; rw [bind_get, hg]; rfl
        rw [run_bind_err (run_bind_err he)]
        exact hf
      · rw [run_overwriteOld_lt hg]
        have hl := Log.get?_lt hg
        rintro k ⟨h1, y, h2, h3⟩
        show ((s.configChanging && !x.isConf) || e.isConf) = true
        rcases Log.get?_over hl h2 with ⟨g1, g2⟩ | ⟨g1, g2⟩
        · have hk : Waiting s k := ⟨h1, y, g2, h3⟩
          have h1' : s.smCommit < k := h1
          rw [hf k hk]
          rcases hx : x.isConf with _ | _
          · rfl
          · have := ho k i hk ⟨by omega, x, hg, hx⟩
            omega
        · subst g2
          rw [h3, Bool.or_true]
    · rw [run_overwriteOld_ge (by omega)]
      exact hf

theorem flags_handleAppendEntries (r : Req) : Pres Flags (handleAppendEntries r) := by
  unfold handleAppendEntries
  refine flags_same (sw_hearLeader r) fun _ => flags_same (pres_get swPo) fun s => flags_same (sw_logOkay r) fun ok => ?_
  refine pres_ite (flags_eq (pres_pure weqPo _)) ?_
  refine flags_then ?_ fun _ => pres_bind weqPo (pd_mod fun _ => ⟨rfl, rfl, rfl⟩) fun _ => pres_bind weqPo (pd_commit _) fun _ => pres_pure weqPo _
  unfold storeEntries
  exact flags_same (sw_skipSame _ _) fun p => flags_then (flags_overwriteOld _ _) fun rest => pd_appendNew rest

/-- As `WaitsEq`, where the applied index may rise up to `n`. -/
def WaitsTo (n : Nat) (s s' : Srv) : Prop := s.smCommit ≤ n →
  s'.smCommit ≤ n ∧ s.smCommit ≤ s'.smCommit ∧ (s.configChanging = true → s'.configChanging = true) ∧
    ∀ k e, s'.log.get? k = some e → e.isConf = true → s'.smCommit < k → s.log.get? k = some e ∨ s'.configChanging = true

theorem wtPo (n : Nat) : PO (WaitsTo n) := by
  refine ⟨fun s hs => ⟨hs, Nat.le_refl _, fun h => h, fun k e h _ _ => .inl h⟩, ?_⟩
  intro a b c h g ha
  obtain ⟨h0, h1, h2, h3⟩ := h ha
  obtain ⟨g0, g1, g2, g3⟩ := g h0
  refine ⟨g0, Nat.le_trans h1 g1, fun h => g2 (h2 h), fun k e hk he hs => ?_⟩
  rcases g3 k e hk he hs with h | h
  · rcases h3 k e h he (by omega) with h' | h'
    · exact .inl h'
    · exact .inr (g2 h')
  · exact .inr h

theorem wt_eq {n : Nat} {α : Type} {m : R α} (h : Pres WaitsEq m) : Pres (WaitsTo n) m := fun s hs => by
  obtain ⟨h1, h2, h3⟩ := h s
  exact ⟨by omega, by omega, h2, h3⟩

theorem flags_installSnapshot (q : Snap) : Pres (WaitsTo q.lastIdx) (installSnapshot q) := by
  unfold installSnapshot
  pres (wtPo q.lastIdx) using wt_eq (pd_die _), wt_eq (pd_logCompact _), wt_eq pd_stopElectionTimer, wt_eq (pd_emit _), wt_eq (pd_reconfigure _),
    wt_eq pd_saveState, wt_eq pd_restartElectionTimer
  · exact wt_eq (pd_mod fun _ => ⟨rfl, rfl, rfl⟩)
  · exact fun s hs => ⟨Nat.le_refl _, hs, fun h => h, fun k e h _ _ => .inl h⟩
  · exact wt_eq (pd_mod fun _ => ⟨rfl, rfl, rfl⟩)

theorem sw_hearSnapshotLeader (r : Req) : Pres SameWait (hearSnapshotLeader r) := by
  unfold hearSnapshotLeader
  pres swPo using sw_becomeFollower, sw_die, sw_restart

theorem WaitsTo.flagged {n : Nat} {s s' : Srv} (h : WaitsTo n s s') (hs : s.smCommit ≤ n) (hf : Flagged s) : Flagged s' := by
  obtain ⟨h0, h1, h2, h3⟩ := h hs
  rintro k ⟨g1, e, g2, g3⟩
  rcases h3 k e g2 g3 g1 with hk | hk
  · exact h2 (hf k ⟨by omega, e, hk, g3⟩)
  · exact hk

theorem wt_handleSnapshotSync (q : SnpSync) : Pres (WaitsTo q.snap.lastIdx) (handleSnapshotSync q) := by
  unfold handleSnapshotSync
  pres (wtPo q.snap.lastIdx) using wt_eq (pd_emit _), wt_eq (pd_die _), flags_installSnapshot

theorem flags_handleInstallSnapshot (r : Req) : Pres Flags (handleInstallSnapshot r) := by
  unfold handleInstallSnapshot
  refine flags_same (sw_hearSnapshotLeader r) fun _ => pres_getBind fun s => ?_
  by_cases h : s.catchingUp = false ∧ r.term < s.term
  · rw [if_pos h]; exact fun _ hf => hf
  · rw [if_neg h]
    rcases hm : r.entries with _ | ⟨⟨t, v⟩, _ | ⟨b, l⟩⟩
    · exact fun _ hf => hf
    · cases v with
      | snpSync =>
        rcases hq : r.sync with _ | q
        · exact fun _ hf => hf
        · simp only []
          by_cases hl : q.snap.lastIdx ≤ s.smCommit
          · rw [if_pos hl]; exact fun _ hf => hf
          · rw [if_neg hl]
            intro _ hf
            have : Pres (WaitsTo q.snap.lastIdx) (do
                let ok ← handleSnapshotSync q
                if ok then
                  pure { type := .snpResp, term := s.term, src := s.id, dst := r.src, nextIdx := q.offset + q.data.length, accepted := true }
                else pure { type := .snpResp, term := s.term, src := s.id, dst := r.src } : R Resp) := by
              pres (wtPo q.snap.lastIdx) using wt_handleSnapshotSync
            exact (this s).flagged (by omega) hf
      | _ => exact fun _ hf => hf
    · cases v <;> exact fun _ hf => hf

/-- Configurations are applied one after the other. -/
theorem flags_applyOne : Pres Flags applyOne := by
  intro s ho hf
  unfold applyOne
  rw [bind_get]
  by_cases hc : s.canApply = true
  · rw [if_pos hc, bind_modify]
    rcases hg : s.log.get? (s.smCommit + 1) with _ | e
    · have h0 : Flagged { s with smCommit := s.smCommit + 1 } := by
        rintro k ⟨h1, h2⟩
        have h1' : s.smCommit + 1 < k := h1
        exact hf k ⟨by omega, h2⟩
      have := (pd_entryToApply (s.smCommit + 1) { s with smCommit := s.smCommit + 1 }).flagged h0
      rcases entryToApply_none (s := { s with smCommit := s.smCommit + 1 }) hg with ⟨_, h⟩ | ⟨_, h⟩
      · rw [h] at this; rw [run_bind_err h]; exact this
      · rw [h] at this; rw [run_bind_err h]; exact this
    · rw [run_bind_ok (entryToApply_some (s := { s with smCommit := s.smCommit + 1 }) hg)]
      obtain ⟨t, v⟩ := e
      have h0 : Flagged { s with smCommit := s.smCommit + 1 } := by
        rintro k ⟨h1, h2⟩
        have h1' : s.smCommit + 1 < k := h1
        exact hf k ⟨by omega, h2⟩
      cases v with
      | conf c =>
        have hnone : ∀ k, s.smCommit + 1 < k → ¬ Waiting s k := by
          intro k hk hw
          have := ho k (s.smCommit + 1) hw ⟨by omega, _, hg, rfl⟩
          omega
        have h1 : Flagged { s with smCommit := s.smCommit + 1, trace := s.trace ++ [.saveConfig c], configChanging := false } := by
          rintro k ⟨h1, h2⟩
          have h1' : s.smCommit + 1 < k := h1
          exact absurd ⟨by omega, h2⟩ (hnone k h1')
        have h2 : Pres WaitsEq (do
            let s ← get
            if s.config.logIdx < c.logIdx then reconfigure c else pure ()
            modify fun s => { s with catchingUp := if c.has s.id then false else s.catchingUp } : R Unit) := by
          pres weqPo using pd_reconfigure c
          all_goals pd
        exact (pres_bind weqPo h2 (fun _ => pd_snapshotAndCompact (s.smCommit + 1)) _).flagged h1
      | app d => exact (pres_bind weqPo (pd_emit (.commit (s.smCommit + 1) ⟨t, .app d⟩)) (fun _ => pd_snapshotAndCompact (s.smCommit + 1)) _).flagged h0
      | _ => exact (pd_snapshotAndCompact (s.smCommit + 1) _).flagged h0
  · rw [if_neg hc]; exact hf

theorem pd_handleCliReq (r : Req) (hc : ∀ e ∈ r.entries, e.isApp = true) : Pres WaitsEq (handleCliReq r) := by
  unfold handleCliReq
  pres weqPo using pd_isLeader, pd_appendClient, pd_requestAppendAll
  all_goals exact hc

theorem flags_dispatch (r : Req) (h1 : r.type ≠ .joinReq) (h2 : r.type ≠ .syncReq)
    (h3 : r.type = .clientReq → ∀ e ∈ r.entries, e.isApp = true) : Pres Flags (dispatch r) := by
  unfold dispatch handleExtended
  split
  · exact flags_handleAppendEntries r
  · exact flags_eq (pd_handleVoteReq r)
  · exact flags_eq (pd_handleCliReq r (h3 ‹_›))
  · split
    · exact flags_eq (pd_handleAddSrv r)
    · exact flags_eq (pd_handleRmSrv r)
    · exact absurd ‹_› h2
    · exact absurd ‹_› h1
    · exact flags_eq (pd_handleLeave r)
    · exact flags_handleInstallSnapshot r
    · exact flags_eq (pd_handlePrevoteReq r)
    · exact flags_eq (pd_die _)

theorem pd_handleExtErr (r : Req) (h1 : r.type ≠ .joinReq) (h2 : r.type ≠ .syncReq) : Pres WaitsEq (handleExtErr r) := by
  unfold handleExtErr
  pres weqPo using pd_forceRemove, pd_modPeer
  all_goals first | exact absurd ‹_› h1 | exact absurd ‹_› h2

theorem pd_replicate (d : Nat) : Pres WaitsEq (Input.replicate d).run := by
  refine pres_bind weqPo ?_ fun _ => pres_pure weqPo _
  unfold replicateLog
  refine pres_bind weqPo pd_isLeader fun b => pres_ite ?_ (pres_pure weqPo _)
  refine pres_bind weqPo (pres_get weqPo) fun s => pres_bind weqPo ?_ fun _ => pres_bind weqPo pd_requestAppendAll fun _ => pres_pure weqPo _
  refine fun s1 => ⟨rfl, fun h => h, fun k e hk he _ => ?_⟩
  rcases Log.get?_append hk with ⟨_, h⟩ | ⟨_, h⟩
  · exact .inl h
  · subst h; cases he

/-- Every input that is covered keeps the flag right, if at most one configuration waits. -/
theorem flags_run {x : Input} (hx : x.settled) : Pres Flags x.run := by
  cases x with
  | req r =>
    show Pres _ (processReq r >>= fun resp => emit (.reply resp))
    unfold processReq
    exact flags_then (flags_same (sw_hearTerm r) fun _ => flags_dispatch r hx.1 hx.2.1 hx.2.2) fun q => pd_emit _
  | peerResp ty r => exact flags_eq (pres_bind weqPo (pd_rpcResult _ _ _) fun _ => pd_handlePeerResp r)
  | extResp p ty r => exact flags_eq (pres_bind weqPo (pd_rpcResult _ _ _) fun _ => pd_handleExtResp r)
  | peerErr r => exact flags_eq (pd_rpcResult _ _ _)
  | extErr p r => exact flags_eq (pres_bind weqPo (pd_rpcResult _ _ _) fun _ => pd_handleExtErr r hx.1 hx.2)
  | retry r => exact flags_eq (pd_retryReq r)
  | electionTimeout => exact flags_eq pd_handleElectionTimeout
  | hbTimeout id => exact flags_eq (pd_handleHbTimeout _)
  | apply => exact flags_applyOne
  | snapDone q ok =>
    exact flags_eq (pres_ite (pres_bind weqPo (pd_keepSnap q) fun _ => pd_onSnapshotCompleted q true) (pd_onSnapshotCompleted q false))
  | replicate d => exact flags_eq (pd_replicate d)
  | tick n => exact flags_eq (pd_mod fun s => ⟨rfl, rfl, rfl⟩)

/-- A server that is started looks for configurations that wait. -/
theorem flagged_boot (c : Setup) (d : Disk) : Flagged (boot c.id c.params c.env d) := by
  rintro k ⟨h1, e, h2, h3⟩
  have h1' : d.applied < k := h1
  have h2' : d.log.get? k = some e := h2
  show ((d.log.ents.drop (max (d.applied + 1) d.log.start - d.log.start)).any Entry.isConf) = true
  rw [List.any_eq_true]
  refine ⟨e, ?_, h3⟩
  have hl := Log.get?_lt h2'
  unfold Log.get? at h2'
  rw [if_neg (by omega)] at h2'
  refine List.mem_of_getElem? (i := k - d.log.start - (max (d.applied + 1) d.log.start - d.log.start)) ?_
  rw [List.getElem?_drop, ← h2']
  congr 1
  omega

theorem flagged_hist {c : Setup} {cfg : Config} {xs : List Input} {fx : List Eff} {n : Node}
    (h : HistOf c OneWaits (Node.fresh cfg) xs fx n) (hx : ∀ x ∈ xs, x.settled) : ∀ s, n.up = some s → Flagged s := by
  induction h with
  | nil => intro s hs; cases hs
  | @step n1 n2 xs fx es x hh hP hs ih =>
    have hxs := ih (fun y hy => hx y (List.mem_append_left _ hy))
    intro s hup
    cases hs with
    | @run d s0 s1 x hrun =>
      cases hup
      have := flags_run (hx x (by simp)) { s0 with trace := [] } (hP s0 rfl) (hxs s0 rfl)
      rw [hrun] at this
      exact this
    | @survive d s0 s1 x hrun =>
      cases hup
      have := flags_run (hx x (by simp)) { s0 with trace := [] } (hP s0 rfl) (hxs s0 rfl)
      rw [hrun] at this
      exact this
    | crash _ => cases hup
    | boot => cases hup; exact flagged_boot c _

/-- C82, for servers that are not about to join and where at most one configuration waits at a time (and no new server is given up
meanwhile): while a configuration of the log has not been applied, requests to add or remove a server are refused and change nothing,
also after crashes and restarts. -/
theorem change_waits_partial {c : Setup} {cfg : Config} {xs : List Input} {fx : List Eff} {d : Disk} {s : Srv}
    (h : HistOf c OneWaits (Node.fresh cfg) xs fx ⟨d, some s⟩) (hx : ∀ x ∈ xs, x.settled) {k : Nat} (hk : Waiting s k) {r : Req}
    (hr : r.type = .addReq ∨ r.type = .rmReq) : ∃ q, processReq r s = (.ok q, s) ∧ q.accepted = false := by
  have hf := flagged_hist h hx s rfl k hk
  rcases hr with hr | hr
  · exact (add_request_partial s r hr).1 (.inr (.inl hf))
  · exact (remove_request_partial s r hr).1 (.inr (.inl hf))

/-- The hypotheses of C82: a leader that has just begun, and has not applied the first configuration. -/
example : ∃ d s fx, HistOf node1 OneWaits (Node.fresh alone) [.electionTimeout] fx ⟨d, some s⟩ ∧ Waiting s 1 ∧ s.role = .leader := by
  have h0 : HistOf node1 OneWaits (Node.fresh alone) [] [] ⟨{ config := alone }, some (boot 1 {} Env.plain { config := alone })⟩ :=
    .step (x := none) (es := []) .nil (fun s hs => by cases hs) .boot
  have hP : OneWaits (boot 1 {} Env.plain { config := alone }) := by
    rintro j k ⟨_, e, h, _⟩ _
    have := Log.get?_lt h
    have h1 : (boot 1 {} Env.plain { config := alone }).log.start = 1 := rfl
    have h2 : (boot 1 {} Env.plain { config := alone }).log.next = 1 := rfl
    omega
  rcases hr : Input.electionTimeout.run { boot 1 {} Env.plain { config := alone } with trace := [] } with ⟨r, s⟩
  have hc : (match Input.electionTimeout.run { boot 1 {} Env.plain { config := alone } with trace := [] } with
    | (.ok _, s) => decide (s.role = .leader) && decide (s.smCommit = 0) &&
      decide (s.log.get? 1 = some ⟨1, .conf ⟨1, 0, alone.servers⟩⟩)
    | _ => false) = true := by decide +kernel
  rw [hr] at hc
  rcases r with e | u
  · cases hc
  simp only [Bool.and_eq_true, decide_eq_true_eq] at hc
  refine ⟨_, s, _, .step (x := some .electionTimeout) h0 (fun s hs => by cases hs; exact hP) (.run hr), ⟨by omega, _, hc.2, rfl⟩, hc.1.1⟩

/-- The invitation does not reach server 4. -/
def inviteFails : Input :=
  .extErr .joining { type := .joinReq, term := 1, src := 1, dst := 4, lastTerm := 0, lastIdx := 1, commitIdx := 1 }

/-- C82 fails when a leader gives up a new server: the flag is reset although the configuration without server 3 has been appended and
is not committed. A request to add server 5 is accepted. -/
theorem given_up_forgets_change :
    ∃ d s fx, Hist node1 (Node.fresh conf3) (electScript.flatMap Move.input ++
        [.req (addReqOf 4), .req (rmReqOf 3), leftOf 3, inviteFails, inviteFails, inviteFails]) fx ⟨d, some s⟩ ∧
      Waiting s 2 ∧ OneWaits s ∧ s.quickCommit = 1 ∧ ∃ q s', processReq (addReqOf 5) s = (.ok q, s') ∧ q.accepted = true := by
  obtain ⟨⟨d, up⟩, fx, h, hp⟩ := Node.witness (c := node1) (n := Node.fresh conf3)
    (electScript ++ [.go (.req (addReqOf 4)), .go (.req (rmReqOf 3)), .go (leftOf 3), .go inviteFails, .go inviteFails, .go inviteFails])
    (fun n _ => match n.up with
      | some s => decide (s.smCommit = 1) && decide (s.log.next = 3) && decide (s.log.get? 2 = some ⟨1, .conf ⟨2, 1, [⟨1, 1⟩, ⟨2, 2⟩]⟩⟩) &&
          decide (s.quickCommit = 1) && (match (processReq (addReqOf 5) s).1 with | .ok q => q.accepted | _ => false)
      | none => false) (by decide +kernel)
  rcases up with _ | s
  · cases hp
  simp only [Bool.and_eq_true, decide_eq_true_eq] at hp
  obtain ⟨⟨⟨⟨h1, h2⟩, h3⟩, h4⟩, h5⟩ := hp
  refine ⟨d, s, fx, h, ⟨by omega, _, h3, rfl⟩, ?_, h4, ?_⟩
  · rintro j k ⟨j1, e, j2, _⟩ ⟨k1, e', k2, _⟩
    have := Log.get?_lt j2
    have := Log.get?_lt k2
    omega
  · rcases hr : processReq (addReqOf 5) s with ⟨e | q, s'⟩
    · rw [hr] at h5; cases h5
    · rw [hr] at h5; exact ⟨q, s', rfl, h5⟩

end Cs.Raft
