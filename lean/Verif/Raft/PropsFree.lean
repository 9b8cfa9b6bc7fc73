import Verif.Raft.Free

/-!
# When no change waits the next one is accepted (C84)
-/

namespace Cs.Raft
open Cs

/-! ## Specification -/

/-- No configuration that waits is cut off the log by these effects, except that the first entry that is overwritten may be one, and
no applied entry is overwritten. -/
def Tidy (s : Srv) (es : List Eff) : Prop :=
  (∀ i e, .writeAt i e ∈ es → s.smCommit < i ∧ ∀ k, Waiting s k → k ≤ i) ∧
  (∀ i l, .applyPack i l ∈ es → s.smCommit < i ∧ ∀ k, Waiting s k → k < i) ∧
  ∀ i, .compact i ∈ es → ∀ k, Waiting s k → i < k

/-- `Runs`, where the server before each input and the effects of the input satisfy `P`. -/
inductive RunsBy (P : Srv → List Eff → Prop) (s : Srv) : List Input → List Eff → Srv → Prop
  | nil : RunsBy P s [] [] s
  | step {s1 s2 : Srv} {xs : List Input} {fx : List Eff} {x : Input} {res : Except Fault Unit} : RunsBy P s xs fx s1 →
      x.run { s1 with trace := [] } = (res, s2) → (res = .ok ⟨⟩ ∨ res = .error .thrown) → P s1 s2.trace →
      RunsBy P s (xs ++ [x]) (fx ++ s2.trace) s2

theorem RunsBy.runs {P : Srv → List Eff → Prop} {s s' : Srv} {xs : List Input} {fx : List Eff} (h : RunsBy P s xs fx s') :
    Runs s xs fx s' := by
  induction h with
  | nil => exact .nil
  | step _ h1 h2 _ ih => exact .step ih h1 h2

/-! ## Steps -/

/-- What is applied is in the log or before it, and the flag is set only if a configuration waits. -/
def Free (s : Srv) : Prop := s.smCommit < s.log.next ∧ (s.configChanging = true → ∃ k, Waiting s k)

theorem Fr.free {s s' : Srv} (h : Fr s s') (hs : Free s) : Free s' := by
  refine ⟨h.1 hs.1, fun hc => ?_⟩
  rcases h.2.2 hs.1 hc with h' | h'
  · obtain ⟨k, hk⟩ := hs.2 h'
    exact ⟨k, h.2.1 k hk⟩
  · exact h'

theorem SameWait.free {s s' : Srv} (h : SameWait s s') (hs : Free s) : Free s' :=
  (fr_same h.1 h.2.1 h.2.2).free hs

theorem SameWait.tidy {s s' : Srv} {es : List Eff} (h : SameWait s s') (ht : Tidy s es) : Tidy s' es := by
  refine ⟨fun i e hm => ?_, fun i l hm => ?_, fun i hm k hk => ht.2.2 i hm k ((h.waiting k).1 hk)⟩
  · obtain ⟨h1, h2⟩ := ht.1 i e hm
    exact ⟨by rw [h.1]; exact h1, fun k hk => h2 k ((h.waiting k).1 hk)⟩
  · obtain ⟨h1, h2⟩ := ht.2.1 i l hm
    exact ⟨by rw [h.1]; exact h1, fun k hk => h2 k ((h.waiting k).1 hk)⟩

theorem Tidy.left {s : Srv} {a b : List Eff} (h : Tidy s (a ++ b)) : Tidy s a :=
  ⟨fun i e hm => h.1 i e (List.mem_append_left _ hm), fun i l hm => h.2.1 i l (List.mem_append_left _ hm),
    fun i hm => h.2.2 i (List.mem_append_left _ hm)⟩
theorem Tidy.right {s : Srv} {a b : List Eff} (h : Tidy s (a ++ b)) : Tidy s b :=
  ⟨fun i e hm => h.1 i e (List.mem_append_right _ hm), fun i l hm => h.2.1 i l (List.mem_append_right _ hm),
    fun i hm => h.2.2 i (List.mem_append_right _ hm)⟩

/-- The effects are added to the trace. -/
def Longer (s s' : Srv) : Prop := ∃ es, s'.trace = s.trace ++ es

theorem longRules : Rules (fun _ _ => True) (fun _ _ => True) (fun _ _ => True) (fun _ => True) where
  quiet := fun _ _ => ⟨trivial, trivial⟩
  compact := fun _ _ => trivial
  new := fun _ => ⟨trivial, fun _ _ _ _ => trivial⟩
  client := fun _ _ => ⟨trivial, fun _ _ _ _ => trivial⟩
  over := fun _ _ _ => ⟨trivial, fun _ _ _ _ => trivial⟩
  commit := fun _ _ => ⟨trivial, trivial⟩

theorem longPo : PO Longer :=
  ⟨fun _ => ⟨[], by simp⟩, fun ⟨a, h⟩ ⟨b, g⟩ => ⟨a ++ b, by rw [g, h, List.append_assoc]⟩⟩

theorem long_tell {α : Type} {m : R α} (h : Pres (Tell (fun _ _ => True) (fun _ _ => True) (fun _ _ => True)) m) : Pres Longer m :=
  fun s => (h s).imp fun _ h => h.1
theorem long_emit (e : Eff) : Pres Longer (emit e) := fun _ => ⟨[e], rfl⟩
theorem long_mod {f : Srv → Srv} (h : ∀ s, (f s).trace = s.trace) : Pres Longer (modify f : R PUnit) :=
  fun s => ⟨[], by rw [List.append_nil]; exact h s⟩

/-- What is proved of each step: if the effects are tidy, `Free` is kept. -/
def Cuts (s s' : Srv) : Prop := ∃ es, s'.trace = s.trace ++ es ∧ (Tidy s es → Free s → Free s')

theorem cuts_fr {α : Type} {m : R α} (h1 : Pres Fr m) (h2 : Pres Longer m) : Pres Cuts m := fun s => by
  obtain ⟨es, h⟩ := h2 s
  exact ⟨es, h, fun _ hf => (h1 s).free hf⟩

theorem cuts_same {α β : Type} {m : R α} {k : α → R β} (h1 : Pres SameWait m) (h1' : Pres Longer m) (h2 : ∀ a, Pres Cuts (k a)) :
    Pres Cuts (m >>= k) := by
  intro s
  have e1 := h1 s
  obtain ⟨es, e2⟩ := h1' s
  rw [run_bind]
  rcases hm : m s with ⟨a | a, s'⟩
  · rw [hm] at e1 e2; exact ⟨es, e2, fun _ hf => e1.free hf⟩
  · rw [hm] at e1 e2
    obtain ⟨es', e3, e4⟩ := h2 a s'
    exact ⟨es ++ es', by rw [e3, e2, List.append_assoc], fun ht hf => e4 (e1.tidy ht.right) (e1.free hf)⟩

theorem cuts_then {α β : Type} {m : R α} {k : α → R β} (h1 : Pres Cuts m) (h2 : ∀ a, Pres Fr (k a)) (h3 : ∀ a, Pres Longer (k a)) :
    Pres Cuts (m >>= k) := by
  intro s
  obtain ⟨es, e1, e2⟩ := h1 s
  rw [run_bind]
  rcases hm : m s with ⟨a | a, s'⟩
  · rw [hm] at e1 e2; exact ⟨es, e1, e2⟩
  · rw [hm] at e1 e2
    obtain ⟨es', e3⟩ := h3 a s'
    exact ⟨es ++ es', by rw [e3, e1, List.append_assoc], fun ht hf => (h2 a s').free (e2 ht.left hf)⟩

theorem cuts_ite {α : Type} {c : Prop} [Decidable c] {a b : R α} (h1 : Pres Cuts a) (h2 : Pres Cuts b) : Pres Cuts (if c then a else b) := by
  split <;> assumption
theorem cuts_pure {α : Type} (a : α) : Pres Cuts (pure a : R α) := fun s => ⟨[], by rw [List.append_nil]; rfl, fun _ h => h⟩

/-! ### Append requests -/

theorem cuts_overwriteOld (i : Nat) (es : List Entry) : Pres Cuts (overwriteOld i es) := by
  cases es with
  | nil => exact cuts_pure _
  | cons e es =>
    intro s
    by_cases h : i < s.log.next
    · rcases hg : s.log.get? i with _ | x
      · refine ⟨[], ?_, fun _ hf => ?_⟩
        all_goals
          unfold overwriteOld
          rw [bind_get, if_pos h]
          unfold rollbackOld
          have he : entryAt i s = (.error (if i < s.log.start then .thrown else .ub), s) := by
            unfold entryAt; rw [bind_get, hg]; rfl
          rw [run_bind_err (run_bind_err he)]
        · rw [List.append_nil]
        · exact hf
      · rw [run_overwriteOld_lt hg]
        have hl := Log.get?_lt hg
        refine ⟨_, rfl, fun ht hf => ?_⟩
        obtain ⟨h1, h2⟩ := ht.1 i e (List.mem_append_right _ (List.mem_cons_self ..))
        refine ⟨?_, fun hc => ?_⟩
        · show s.smCommit < (s.log.replaceFrom i [e]).next
          rw [Log.next_over hl]; omega
        · have hc' : ((s.configChanging && !x.isConf) || e.isConf) = true := hc
          rcases he : e.isConf with _ | _
          · rw [he, Bool.or_false, Bool.and_eq_true] at hc'
            obtain ⟨k, hk⟩ := hf.2 hc'.1
            have := h2 k hk
            obtain ⟨k1, y, k2, k3⟩ := hk
            have hne : k ≠ i := by
              rintro rfl
              rw [hg] at k2; cases k2
              rw [k3] at hc'; cases hc'.2
            exact ⟨k, k1, y, Log.get?_over_lt hl (by omega) k2, k3⟩
          · exact ⟨i, h1, e, Log.get?_over_self hl, he⟩
    · rw [run_overwriteOld_ge (by omega)]
      exact ⟨[], by rw [List.append_nil], fun _ hf => hf⟩

theorem cuts_handleAppendEntries (r : Req) : Pres Cuts (handleAppendEntries r) := by
  unfold handleAppendEntries
  refine cuts_same (sw_hearLeader r) (long_tell (tl_hearLeader longRules r)) fun _ => cuts_same (pres_get swPo) (pres_get longPo) fun s =>
    cuts_same (sw_logOkay r) (long_tell (tl_logOkay longRules r)) fun ok => cuts_ite (cuts_pure _) ?_
  refine cuts_then ?_ (fun _ => pres_bind frPo (fr_mod fun _ => ⟨rfl, rfl, rfl⟩) fun _ => pres_bind frPo (fr_commit _) fun _ => pres_pure frPo _)
    (fun _ => pres_bind longPo (long_mod fun _ => rfl) fun _ => pres_bind longPo (long_tell (tl_commit longRules _)) fun _ => pres_pure longPo _)
  unfold storeEntries
  exact cuts_same (sw_skipSame _ _) (long_tell (tl_skipSame longRules _ _)) fun p =>
    cuts_then (cuts_overwriteOld _ _) (fun rest => fr_appendNew rest) (fun rest => long_tell (tl_appendNew longRules rest))

/-! ### Packs -/

theorem cuts_logApplyPack (i : Nat) (es : List Entry) : Pres Cuts (logApplyPack i es) := by
  intro s
  unfold logApplyPack
  rw [bind_get]
  by_cases h : es = []
  · rw [if_pos h]; exact ⟨[], by rw [List.append_nil]; rfl, fun _ hf => hf⟩
  · rw [if_neg h]
    by_cases hi : i < s.log.start ∨ s.log.next < i
    · rw [if_pos hi]; exact ⟨[], by rw [List.append_nil]; rfl, fun _ hf => hf⟩
    · rw [if_neg hi]
      refine ⟨[.applyPack i es], rfl, fun ht hf => ?_⟩
      obtain ⟨h1, h2⟩ := ht.2.1 i es (List.mem_singleton_self _)
      refine ⟨?_, fun hc => ?_⟩
      · show s.smCommit < (s.log.replaceFrom i es).next
        have h0 : 0 < es.length := List.length_pos_iff.2 h
        unfold Log.replaceFrom Log.next at *
        simp only [List.length_append, List.length_take]
        omega
      · obtain ⟨k, hk⟩ := hf.2 hc
        have h3 := h2 k hk
        obtain ⟨k1, y, k2, k3⟩ := hk
        refine ⟨k, k1, y, ?_, k3⟩
        show (s.log.replaceFrom i es).get? k = some y
        have hl := Log.get?_lt k2
        unfold Log.get? at k2 ⊢
        unfold Log.replaceFrom Log.next at *
        simp only []
        rw [if_neg (by omega)] at k2 ⊢
        rw [List.getElem?_append_left (by rw [List.length_take]; omega), List.getElem?_take_of_lt (by omega)]
        exact k2

theorem cuts_handleLogSync (r : Req) : Pres Cuts (handleLogSync r) := by
  unfold handleLogSync
  refine cuts_same (pres_get swPo) (pres_get longPo) fun s => ?_
  split
  · refine cuts_ite (cuts_pure _) (cuts_then (cuts_logApplyPack _ _) (fun _ => ?_) (fun _ => ?_))
    · pres frPo using fr_commit
    · pres longPo using long_tell (tl_commit longRules _)
  · exact cuts_pure _

/-! ### Snapshots -/

theorem sw_modPeer (r : PeerRef) (f : Peer → Peer) : Pres SameWait (modPeer r f) := fun s => by cases r <;> exact ⟨rfl, rfl, rfl⟩
theorem sw_enableHb (r : PeerRef) : Pres SameWait (enableHb r) := by
  unfold enableHb
  pres swPo using sw_modPeer
theorem sw_addPeer (c : SrvCfg) : Pres SameWait (addPeer c) := by
  unfold addPeer
  pres swPo using sw_modPeer, sw_enableHb
  all_goals sw
theorem sw_removePeer (c : Config) (i : Int) : Pres SameWait (removePeer c i) := by
  unfold removePeer
  pres swPo using sw_emit, sw_die
  all_goals sw
theorem sw_reconfigure (c : Config) : Pres SameWait (reconfigure c) := by
  unfold reconfigure
  pres swPo using sw_addPeer, sw_removePeer
  all_goals sw
theorem sw_stop : Pres SameWait stopElectionTimer := fun _ => ⟨rfl, rfl, rfl⟩

/-- All that waits is behind `n`, and the log reaches that far. -/
def Behind (n : Nat) (s s' : Srv) : Prop :=
  (Free s ∧ n < s.log.next ∧ ∀ k, Waiting s k → n < k) → Free s' ∧ n < s'.log.next ∧ ∀ k, Waiting s' k → n < k

theorem behindPo (n : Nat) : PO (Behind n) := ⟨fun _ h => h, fun h g hs => g (h hs)⟩
theorem behind_same {n : Nat} {α : Type} {m : R α} (h : Pres SameWait m) : Pres (Behind n) m := fun s hs => by
  have e := h s
  exact ⟨e.free hs.1, by rw [e.2.2]; exact hs.2.1, fun k hk => hs.2.2 k ((e.waiting k).1 hk)⟩

theorem Log.next_compact_le {l : Log} {i : Nat} (h : l.start ≤ i) : l.next ≤ (l.compact i).next ∧ i < (l.compact i).next := by
  unfold Log.compact Log.next
  simp only [List.length_drop]
  omega

theorem run_logCompact (s : Srv) (i : Nat) : (logCompact i s = (.error .thrown, s)) ∨ (logCompact i s = (.ok false, s)) ∨
    (s.log.start ≤ i ∧ logCompact i s = (.ok true, { s with log := s.log.compact i, trace := s.trace ++ [.compact i] })) := by
  unfold logCompact
  rw [bind_get]
  by_cases h : i < s.log.start
  · rw [if_pos h]; exact .inl rfl
  · rw [if_neg h]
    by_cases hc : s.env.compactOk i
    · rw [if_pos hc]; exact .inr (.inr ⟨by omega, rfl⟩)
    · rw [if_neg hc]; exact .inr (.inl rfl)

/-- After the log has been cut off at `i`. -/
theorem free_compact {s : Srv} {i : Nat} (hs : s.log.start ≤ i) (h : ∀ k, Waiting s k → i < k) (hf : Free s) (t : List Eff) :
    Free { s with log := s.log.compact i, trace := t } ∧ i < (s.log.compact i).next ∧
      ∀ k, Waiting { s with log := s.log.compact i, trace := t } k → i < k := by
  have hn := Log.next_compact_le hs
  have hw : ∀ k, Waiting s k → Waiting { s with log := s.log.compact i, trace := t } k := by
    rintro k ⟨k1, y, k2, k3⟩
    have := h k ⟨k1, y, k2, k3⟩
    exact ⟨k1, y, by show (s.log.compact i).get? k = _; rw [Log.get?_compact hs this]; exact k2, k3⟩
  refine ⟨⟨by show s.smCommit < (s.log.compact i).next; have := hf.1; omega, fun hc => ?_⟩, hn.2, fun k hk => ?_⟩
  · obtain ⟨k, hk⟩ := hf.2 hc
    exact ⟨k, hw k hk⟩
  · obtain ⟨k1, y, k2, k3⟩ := hk
    have := Log.get?_lt k2
    have h2 : (s.log.compact i).start = i + 1 := rfl
    have h3 : ({ s with log := s.log.compact i, trace := t } : Srv).log.start = i + 1 := rfl
    omega

theorem cuts_installSnapshot (q : Snap) : Pres Cuts (installSnapshot q) := by
  intro s
  unfold installSnapshot
  rw [bind_get]
  by_cases hl : q.lastIdx < s.log.start
  · rw [if_pos hl]
    exact cuts_fr (fr_die _) (long_tell (tl_die longRules _)) s
  · rw [if_neg hl]
    rcases run_logCompact s q.lastIdx with h | h | ⟨h0, h⟩
    · rw [run_bind_err h]; exact ⟨[], by rw [List.append_nil], fun _ hf => hf⟩
    · rw [run_bind_ok h]; exact ⟨[], by rw [List.append_nil]; rfl, fun _ hf => hf⟩
    · rw [run_bind_ok h, if_pos rfl]
      have hb : Pres (Behind q.lastIdx) (do
          stopElectionTimer
          emit (.applySnp q)
          if s.env.applySnp q = false then die (-1)
          else do
            modify fun s => { s with smSnap := some q }
            reconfigure q.config
            let s ← get
            emit (.saveConfig s.config)
            modify fun s => { s with smCommit := q.lastIdx, quickCommit := q.lastIdx }
            saveState
            modify fun s => { s with lastSnap := some { q with config := s.config } }
            restartElectionTimer
            pure true : R Bool) := by
        pres (behindPo _) using behind_same sw_stop, behind_same (sw_emit _), behind_same (sw_die _), behind_same (sw_reconfigure _),
          behind_same sw_saveState, behind_same sw_restart
        · exact behind_same (sw_mod fun _ => ⟨rfl, rfl, rfl⟩)
        · rintro t ⟨h1, h2, h3⟩
          refine ⟨⟨h2, fun hc => ?_⟩, h2, fun k hk => hk.1⟩
          obtain ⟨k, hk⟩ := h1.2 hc
          exact ⟨k, h3 k hk, hk.2⟩
        · exact behind_same (sw_mod fun _ => ⟨rfl, rfl, rfl⟩)
      have hg : Pres Longer (do
          stopElectionTimer
          emit (.applySnp q)
          if s.env.applySnp q = false then die (-1)
          else do
            modify fun s => { s with smSnap := some q }
            reconfigure q.config
            let s ← get
            emit (.saveConfig s.config)
            modify fun s => { s with smCommit := q.lastIdx, quickCommit := q.lastIdx }
            saveState
            modify fun s => { s with lastSnap := some { q with config := s.config } }
            restartElectionTimer
            pure true : R Bool) := by
        pres longPo using long_tell (tl_stopElectionTimer longRules), long_emit, long_tell (tl_die longRules _), long_tell (tl_reconfigure longRules _),
          long_tell (tl_saveState longRules), long_tell (tl_restartElectionTimer longRules)
        all_goals exact long_mod fun _ => rfl
      obtain ⟨es, he⟩ := hg { s with log := s.log.compact q.lastIdx, trace := s.trace ++ [.compact q.lastIdx] }
      refine ⟨.compact q.lastIdx :: es, by rw [he]; show s.trace ++ [_] ++ es = _; rw [List.append_assoc]; rfl, fun ht hf => ?_⟩
      exact (hb _ (free_compact h0 (ht.2.2 _ (List.mem_cons_self ..)) hf _)).1

theorem cuts_handleInstallSnapshot (r : Req) : Pres Cuts (handleInstallSnapshot r) := by
  unfold handleInstallSnapshot
  refine cuts_same (sw_hearSnapshotLeader r) (long_tell (tl_hearSnapshotLeader longRules r)) fun _ =>
    cuts_same (pres_get swPo) (pres_get longPo) fun s => cuts_ite (cuts_pure _) ?_
  split
  · refine cuts_ite (cuts_pure _) (cuts_then ?_ (fun ok => ?_) (fun ok => ?_))
    · unfold handleSnapshotSync
      refine cuts_same (sw_emit _) (long_emit _) fun _ => cuts_ite ?_ (cuts_pure _)
      exact cuts_same (pres_get swPo) (pres_get longPo) fun s => cuts_ite (cuts_fr (fr_die _) (long_tell (tl_die longRules _))) (cuts_installSnapshot _)
    · exact pres_ite (pres_pure frPo _) (pres_pure frPo _)
    · exact pres_ite (pres_pure longPo _) (pres_pure longPo _)
  · exact cuts_pure _

theorem cuts_logCompact (i : Nat) : Pres Cuts (logCompact i) := by
  intro s
  rcases run_logCompact s i with h | h | ⟨h0, h⟩
  · rw [h]; exact ⟨[], by rw [List.append_nil], fun _ hf => hf⟩
  · rw [h]; exact ⟨[], by rw [List.append_nil], fun _ hf => hf⟩
  · rw [h]
    exact ⟨[.compact i], rfl, fun ht hf => (free_compact h0 (ht.2.2 _ (List.mem_cons_self ..)) hf _).1⟩

theorem cuts_onSnapshotCompleted (q : Snap) (ok : Bool) : Pres Cuts (onSnapshotCompleted q ok) := by
  have hf : Pres Cuts (modify fun s => { s with snpInProgress := false } : R PUnit) :=
    cuts_fr (fr_mod fun _ => ⟨rfl, rfl, rfl⟩) (long_mod fun _ => rfl)
  unfold onSnapshotCompleted
  refine cuts_ite ?_ hf
  refine cuts_same (sw_mod fun _ => ⟨rfl, rfl, rfl⟩) (long_mod fun _ => rfl) fun _ => cuts_same (pres_get swPo) (pres_get longPo) fun s =>
    cuts_ite (cuts_then (cuts_logCompact _) (fun _ => fr_mod fun _ => ⟨rfl, rfl, rfl⟩) (fun _ => long_mod fun _ => rfl)) hf

/-! ### The commit thread -/

theorem free_off {α : Type} {m : R α} (h : Pres SameWait m) {s : Srv} (h1 : s.smCommit < s.log.next) (h2 : s.configChanging = false) :
    Free (m s).2 := (h s).free ⟨h1, fun hc => by rw [h2] at hc; cases hc⟩

theorem free_commitConf (c : Config) {s : Srv} (h : s.smCommit < s.log.next) : Free (commitConf c s).2 := by
  unfold commitConf
  rw [bind_emit, bind_modify]
  refine free_off ?_ h rfl
  pres swPo using sw_reconfigure
  all_goals exact sw_mod fun _ => ⟨rfl, rfl, rfl⟩

theorem free_applyOne (s : Srv) (hf : Free s) : Free (applyOne s).2 := by
  unfold applyOne
  rw [bind_get]
  by_cases hc : s.canApply = true
  · rw [if_pos hc, bind_modify]
    have hn : s.smCommit + 1 < s.log.next := by
      unfold Srv.canApply at hc
      simp only [Bool.and_eq_true, decide_eq_true_eq] at hc
      omega
    generalize hs1 : ({ s with smCommit := s.smCommit + 1 } : Srv) = s1
    have h1 : s1.smCommit = s.smCommit + 1 := by rw [← hs1]
    have h2 : s1.log = s.log := by rw [← hs1]
    have h3 : s1.configChanging = s.configChanging := by rw [← hs1]
    -- unless the entry is a configuration
    have hkeep : (∀ e, s.log.get? (s.smCommit + 1) = some e → e.isConf = false) → Free s1 := by
      refine fun hnc => ⟨by rw [h1, h2]; exact hn, fun hx => ?_⟩
      obtain ⟨k, k1, y, k2, k3⟩ := hf.2 (by rw [← h3]; exact hx)
      refine ⟨k, ?_, y, by rw [h2]; exact k2, k3⟩
      have : k ≠ s.smCommit + 1 := by
        rintro rfl
        rw [hnc y k2] at k3; cases k3
      rw [h1]; omega
    rcases hg : s.log.get? (s.smCommit + 1) with _ | e
    · have hf1 := hkeep (by rw [hg]; exact fun e h => (by cases h))
      have hm : Pres SameWait (entryToApply (s.smCommit + 1)) := by
        unfold entryToApply
        pres swPo using sw_die
      have hs2 := (hm s1).free hf1
      have hg1 : s1.log.get? (s.smCommit + 1) = none := by rw [h2]; exact hg
      have he : ∃ f s2, entryToApply (s.smCommit + 1) s1 = (.error f, s2) := by
        unfold entryToApply
        rw [bind_get, hg1]
        by_cases hl : s.smCommit + 1 < s1.log.start
        · exact ⟨_, _, by show (if _ then _ else _ : R Entry) s1 = _; rw [if_pos hl]; rfl⟩
        · exact ⟨_, _, by show (if _ then _ else _ : R Entry) s1 = _; rw [if_neg hl]; rfl⟩
      obtain ⟨f, s2, he⟩ := he
      rw [run_bind_err he]
      rw [he] at hs2
      exact hs2
    · have he : entryToApply (s.smCommit + 1) s1 = (.ok e, s1) := by
        unfold entryToApply
        rw [bind_get, h2, hg]; rfl
      rw [run_bind_ok he]
      have hfin : Free (applyEntry (s.smCommit + 1) e s1).2 := by
        rcases hv : e.isConf with _ | _
        · exact ((fr_applyEntry _ e) s1).free (hkeep fun e' h' => by rw [hg] at h'; cases h'; exact hv)
        · obtain ⟨t, v⟩ := e
          cases v with
          | conf c => exact free_commitConf c (by rw [h1, h2]; exact hn)
          | app d => cases hv
          | srv d => cases hv
          | rmId d => cases hv
          | logPack => cases hv
          | snpSync => cases hv
      rw [run_bind]
      rcases hm : applyEntry (s.smCommit + 1) e s1 with ⟨a | a, s2⟩
      · rw [hm] at hfin; exact hfin
      · rw [hm] at hfin
        exact ((fr_snapshotAndCompact _) s2).free hfin
  · rw [if_neg hc]; exact hf

theorem cuts_applyOne : Pres Cuts applyOne := fun s => by
  obtain ⟨es, h⟩ := long_tell (tl_applyOne longRules) s
  exact ⟨es, h, fun _ hf => free_applyOne s hf⟩

/-! ### All inputs -/

theorem fr_logAppend_app (t d : Nat) : Pres Fr (logAppend ⟨t, .app d⟩) := fun _ => fr_app (e := ⟨t, .app d⟩) rfl rfl rfl

theorem cuts_handleCliReq (r : Req) : Pres Cuts (handleCliReq r) := by
  refine cuts_fr ?_ (long_tell (tl_handleCliReq longRules r fun _ _ _ => trivial))
  unfold handleCliReq
  pres frPo using fr_isLeader, fr_appendClient, fr_requestAppendAll

theorem cuts_replicateLog (d : Nat) : Pres Cuts (replicateLog d) := by
  refine cuts_fr ?_ ?_
  · unfold replicateLog
    pres frPo using fr_isLeader, fr_logAppend_app, fr_requestAppendAll
  · unfold replicateLog
    pres longPo using long_tell (tl_isLeader longRules), long_tell (tl_requestAppendAll longRules)
    exact fun s => ⟨[_], rfl⟩

theorem cuts_dispatch (r : Req) : Pres Cuts (dispatch r) := by
  unfold dispatch handleExtended
  split
  · exact cuts_handleAppendEntries r
  · exact cuts_fr (fr_handleVoteReq r) (long_tell (tl_handleVoteReq longRules r))
  · exact cuts_handleCliReq r
  · split
    · exact cuts_fr (fr_handleAddSrv r) (long_tell (tl_handleAddSrv longRules r))
    · exact cuts_fr (fr_handleRmSrv r) (long_tell (tl_handleRmSrv longRules r))
    · exact cuts_handleLogSync r
    · exact cuts_fr (fr_handleJoin r) (long_tell (tl_handleJoin longRules r))
    · exact cuts_fr (fr_handleLeave r) (long_tell (tl_handleLeave longRules r))
    · exact cuts_handleInstallSnapshot r
    · exact cuts_fr (fr_handlePrevoteReq r) (long_tell (tl_handlePrevoteReq longRules r))
    · exact cuts_fr (fr_die _) (long_tell (tl_die longRules _))

theorem cuts_run (x : Input) : Pres Cuts x.run := by
  cases x with
  | req r =>
    refine cuts_then (m := processReq r) ?_ (fun _ => fr_emit _) (fun _ => long_emit _)
    exact cuts_same (sw_hearTerm r) (long_tell (tl_hearTerm longRules r)) fun _ => cuts_dispatch r
  | peerResp ty r =>
    exact cuts_fr (pres_bind frPo (fr_rpcResult _ _ _) fun _ => fr_handlePeerResp r)
      (pres_bind longPo (long_tell (tl_rpcResult longRules _ _ _)) fun _ => long_tell (tl_handlePeerResp longRules r))
  | extResp p ty r =>
    exact cuts_fr (pres_bind frPo (fr_rpcResult _ _ _) fun _ => fr_handleExtResp r)
      (pres_bind longPo (long_tell (tl_rpcResult longRules _ _ _)) fun _ => long_tell (tl_handleExtResp longRules r))
  | peerErr r => exact cuts_fr (fr_rpcResult _ _ _) (long_tell (tl_rpcResult longRules _ _ _))
  | extErr p r =>
    exact cuts_fr (pres_bind frPo (fr_rpcResult _ _ _) fun _ => fr_handleExtErr r)
      (pres_bind longPo (long_tell (tl_rpcResult longRules _ _ _)) fun _ => long_tell (tl_handleExtErr longRules r))
  | retry r => exact cuts_fr (fr_retryReq r) (long_tell (tl_retryReq longRules r))
  | electionTimeout => exact cuts_fr fr_handleElectionTimeout (long_tell (tl_handleElectionTimeout longRules))
  | hbTimeout i => exact cuts_fr (fr_handleHbTimeout _) (long_tell (tl_handleHbTimeout longRules _))
  | apply => exact cuts_applyOne
  | snapDone q ok =>
    unfold Input.run
    refine cuts_ite (cuts_same ?_ (long_tell (tl_keepSnap longRules q)) fun _ => cuts_onSnapshotCompleted _ _) (cuts_onSnapshotCompleted _ _)
    unfold keepSnap
    pres swPo using sw_emit
    exact sw_mod fun _ => ⟨rfl, rfl, rfl⟩
  | replicate d => exact cuts_then (cuts_replicateLog d) (fun _ => pres_pure frPo _) (fun _ => pres_pure longPo _)
  | tick n => exact cuts_fr (fr_mod fun _ => ⟨rfl, rfl, rfl⟩) (long_mod fun _ => rfl)

theorem free_boot (c : Setup) {d : Disk} (h : d.applied < d.log.next) : Free (boot c.id c.params c.env d) := by
  refine ⟨h, fun hc => ?_⟩
  have hc' : ((d.log.ents.drop (max (d.applied + 1) d.log.start - d.log.start)).any Entry.isConf) = true := hc
  rw [List.any_eq_true] at hc'
  obtain ⟨e, he, hcf⟩ := hc'
  obtain ⟨n, hn⟩ := List.getElem?_of_mem he
  rw [List.getElem?_drop] at hn
  refine ⟨max (d.applied + 1) d.log.start + n, ?_, e, ?_, hcf⟩
  · show d.applied < _; omega
  · show d.log.get? _ = some e
    unfold Log.get?
    rw [if_neg (by omega), ← hn]
    congr 1
    omega

/-! ## C84 -/

/-- Once no flag is set without a configuration that waits, this remains so. -/
theorem free_runs {s s' : Srv} {xs : List Input} {fx : List Eff} (h : RunsBy Tidy s xs fx s') (hs : Free s) : Free s' := by
  induction h with
  | nil => exact hs
  | @step s1 s2 xs fx x res h1 h2 h3 h4 ih =>
    obtain ⟨es, e1, e2⟩ := cuts_run x { s1 with trace := [] }
    rw [h2] at e1 e2
    have e1' : s2.trace = es := e1
    exact e2 (by rw [← e1']; exact h4) ih

/-- C84, for a server that has been running since it was started, and unless a configuration that waits is cut off the log (by a
snapshot, by a pack, or together with entries before it) or applied entries are overwritten: if no configuration waits to be applied,
the leader accepts a request to add a server that is not a member and a request to remove another member, and asks the server to
join or to leave. -/
theorem change_accepted_partial (c : Setup) {d : Disk} {s : Srv} {xs : List Input} {fx : List Eff}
    (h : RunsBy Tidy (boot c.id c.params c.env d) xs fx s) (hd : d.applied < d.log.next) (hl : s.role = .leader) (hw : ∀ k, ¬Waiting s k)
    {r : Req} (hr : (∃ t c, r.type = .addReq ∧ r.entries = [⟨t, .srv c⟩] ∧ c.id ≠ s.id ∧ c.id ∉ s.peers.map Peer.id) ∨
      ∃ t i, r.type = .rmReq ∧ r.entries = [⟨t, .rmId i⟩] ∧ i ≠ s.id ∧ i ∈ s.peers.map Peer.id) :
    ∃ q s' j, processReq r s = (.ok q, s') ∧ q.accepted = true ∧ s'.trace = s.trace ++ [.send j] ∧
      j.type = if r.type = .addReq then .joinReq else .leaveReq := by
  have hf := free_runs h (free_boot c hd)
  have hc : s.configChanging ≠ true := fun hc => by
    obtain ⟨k, hk⟩ := hf.2 hc
    exact hw k hk
  rcases hr with ⟨t, v, h1, h2⟩ | ⟨t, i, h1, h2⟩
  · obtain ⟨q, s', j, e1, e2, _, e3, e4⟩ := (add_request_partial s r h1).2 (by
      unfold addRefused
      rintro (h' | h' | h')
      · exact h' hl
      · exact hc h'
      · exact h' ⟨t, v, h2⟩)
    exact ⟨q, s', j, e1, e2, e3, by rw [if_pos h1]; exact e4⟩
  · obtain ⟨q, s', j, e1, e2, _, e3, e4⟩ := (remove_request_partial s r h1).2 (by
      unfold rmRefused
      rintro (h' | h' | h')
      · exact h' hl
      · exact hc h'
      · exact h' ⟨t, i, h2⟩)
    exact ⟨q, s', j, e1, e2, e3, by rw [h1]; exact e4⟩

/-! ## The hypotheses can be met, and where the claim fails -/

/-- Effects that remove nothing from the log. -/
def Eff.keeps : Eff → Bool
  | .writeAt _ _ => false
  | .applyPack _ _ => false
  | .compact _ => false
  | _ => true

theorem tidy_keeps {s : Srv} {es : List Eff} (h : es.all Eff.keeps = true) : Tidy s es := by
  rw [List.all_eq_true] at h
  exact ⟨fun i e hm => (by have := h _ hm; cases this), fun i l hm => (by have := h _ hm; cases this),
    fun i hm => (by have := h _ hm; cases this)⟩

theorem RunsBy.of_keeps {s s' : Srv} {xs : List Input} {fx : List Eff} (h : Runs s xs fx s') (hk : fx.all Eff.keeps = true) :
    RunsBy Tidy s xs fx s' := by
  induction h with
  | nil => exact .nil
  | step _ h1 h2 ih =>
    rw [List.all_append, Bool.and_eq_true] at hk
    exact .step (ih hk.1) h1 h2 (tidy_keeps hk.2)

/-- The hypotheses of C84: server 1 has been elected and has applied its first configuration. -/
example : ∃ s fx, RunsBy Tidy (boot node1.id node1.params node1.env { config := conf3 }) (electScript.flatMap Move.input) fx s ∧
    s.role = .leader ∧ (∀ k, ¬Waiting s k) ∧ (∃ t c, (addReqOf 4).entries = [⟨t, .srv c⟩] ∧ c.id ≠ s.id ∧ c.id ∉ s.peers.map Peer.id) := by
  obtain ⟨s, fx, h, hp⟩ := Srv.runs_witness (s := boot node1.id node1.params node1.env { config := conf3 }) (electScript.flatMap Move.input)
    (fun s fx => fx.all Eff.keeps && decide (s.role = .leader) && decide (s.smCommit = 1) && decide (s.log.next = 2) && decide (s.id = 1) &&
      decide (s.peers.map Peer.id = [2, 3])) (by decide +kernel)
  simp only [Bool.and_eq_true, decide_eq_true_eq] at hp
  obtain ⟨⟨⟨⟨⟨h1, h2⟩, h3⟩, h4⟩, h5⟩, h6⟩ := hp
  refine ⟨s, fx, .of_keeps h h1, h2, ?_, 0, ⟨4, 7⟩, rfl, by rw [h5]; decide, by rw [h6]; decide⟩
  rintro k ⟨k1, e, k2, _⟩
  have := Log.get?_lt k2
  omega

/-- Server 2 sends its first configuration, which is committed, then a command and the removal of server 3, and stops. Server 3 becomes
leader and replaces the command. Then server 1 becomes leader, and all of its log is applied. -/
def cutConf : List Move :=
  [.start, .go (.req (appendReqOf 2 1 0 0 [⟨1, .conf ⟨1, 0, conf3.servers⟩⟩] 1)), .go .apply,
    .go (.req (appendReqOf 2 1 1 1 [⟨1, .app 5⟩, ⟨1, .conf ⟨3, 1, [⟨1, 1⟩, ⟨2, 2⟩]⟩⟩] 1)),
    .go (.req (appendReqOf 3 2 1 1 [⟨2, .app 6⟩] 2)), .go .apply, .go .electionTimeout, .go (voteRespOf 2 3 true)]

/-- C84 fails when the configuration that waits is cut off together with an entry before it: nothing waits, and the leader refuses to
add a server and to remove one. -/
theorem cut_change_blocks :
    ∃ d s fx, Hist node1 (Node.fresh conf3) (cutConf.flatMap Move.input) fx ⟨d, some s⟩ ∧ s.role = .leader ∧ s.smCommit = 2 ∧ s.log.next = 3 ∧
      (∀ k, ¬Waiting s k) ∧ s.peers.map Peer.id = [2, 3] ∧
      (∃ q, processReq (addReqOf 4) s = (.ok q, s) ∧ q.accepted = false) ∧ ∃ q, processReq (rmReqOf 3) s = (.ok q, s) ∧ q.accepted = false := by
  obtain ⟨⟨d, up⟩, fx, h, hp⟩ := Node.witness (c := node1) (n := Node.fresh conf3) cutConf
    (fun n _ => match n.up with
      | some s => decide (s.role = .leader) && decide (s.smCommit = 2) && decide (s.log.next = 3) && decide (s.peers.map Peer.id = [2, 3]) &&
          decide (s.configChanging = true)
      | none => false) (by decide +kernel)
  rcases up with _ | s
  · cases hp
  simp only [Bool.and_eq_true, decide_eq_true_eq] at hp
  obtain ⟨⟨⟨⟨h1, h2⟩, h3⟩, h4⟩, h5⟩ := hp
  refine ⟨d, s, fx, h, h1, h2, h3, ?_, h4, (add_request_partial s _ rfl).1 (.inr (.inl h5)), (remove_request_partial s _ rfl).1 (.inr (.inl h5))⟩
  rintro k ⟨k1, e, k2, _⟩
  have := Log.get?_lt k2
  omega

/-- The snapshot of server 3, up to index 5. -/
def snapshotOf3 : Req :=
  { type := .snpReq, term := 2, src := 3, dst := 1, lastTerm := 2, lastIdx := 5, commitIdx := 5, entries := [⟨2, .snpSync⟩],
    sync := some ⟨⟨5, 2, ⟨1, 0, conf3.servers⟩, 3⟩, 0, [1, 2, 3], true⟩ }

/-- Server 2 sends its first configuration, which is committed, then the removal of server 3, and stops. Server 3 becomes leader, and
sends a snapshot when server 1 has fallen behind. Then server 1 becomes leader. -/
def coveredConf : List Move :=
  [.start, .go (.req (appendReqOf 2 1 0 0 [⟨1, .conf ⟨1, 0, conf3.servers⟩⟩] 1)), .go .apply,
    .go (.req (appendReqOf 2 1 1 1 [⟨1, .conf ⟨2, 1, [⟨1, 1⟩, ⟨2, 2⟩]⟩⟩] 1)),
    .go (.req snapshotOf3), .go .electionTimeout, .go (voteRespOf 2 3 true)]

/-- C84 fails in the same way when a snapshot takes the place of the configuration that waits. -/
theorem covered_change_blocks :
    ∃ d s fx, Hist node1 (Node.fresh conf3) (coveredConf.flatMap Move.input) fx ⟨d, some s⟩ ∧ s.role = .leader ∧ s.smCommit = 5 ∧
      s.log.next = 6 ∧ (∀ k, ¬Waiting s k) ∧ s.peers.map Peer.id = [2, 3] ∧
      (∃ q, processReq (addReqOf 4) s = (.ok q, s) ∧ q.accepted = false) ∧ ∃ q, processReq (rmReqOf 3) s = (.ok q, s) ∧ q.accepted = false := by
  obtain ⟨⟨d, up⟩, fx, h, hp⟩ := Node.witness (c := node1) (n := Node.fresh conf3) coveredConf
    (fun n _ => match n.up with
      | some s => decide (s.role = .leader) && decide (s.smCommit = 5) && decide (s.log.next = 6) && decide (s.peers.map Peer.id = [2, 3]) &&
          decide (s.configChanging = true)
      | none => false) (by decide +kernel)
  rcases up with _ | s
  · cases hp
  simp only [Bool.and_eq_true, decide_eq_true_eq] at hp
  obtain ⟨⟨⟨⟨h1, h2⟩, h3⟩, h4⟩, h5⟩ := hp
  refine ⟨d, s, fx, h, h1, h2, h3, ?_, h4, (add_request_partial s _ rfl).1 (.inr (.inl h5)), (remove_request_partial s _ rfl).1 (.inr (.inl h5))⟩
  rintro k ⟨k1, e, k2, _⟩
  have := Log.get?_lt k2
  omega

end Cs.Raft
