import Verif.Raft.Commits
import Verif.Raft.Store
import Verif.Raft.Play
import Verif.Raft.PropsVote

/-!
# Commit and apply (C33, C34)
-/

namespace Cs.Raft
open Cs

/-! ## Specification -/

/-- A server that keeps running: the inputs it handles, each to the end or up to an exception that leaves the handler, and
its effects. -/
inductive Runs (s : Srv) : List Input → List Eff → Srv → Prop
  | nil : Runs s [] [] s
  | step {s1 s2 : Srv} {xs : List Input} {fx : List Eff} {x : Input} {res : Except Fault Unit} : Runs s xs fx s1 →
      x.run { s1 with trace := [] } = (res, s2) → (res = .ok ⟨⟩ ∨ res = .error .thrown) →
      Runs s (xs ++ [x]) (fx ++ s2.trace) s2

/-- The commands handed to the state machine, with their indexes. -/
def commits (fx : List Eff) : List (Nat × Entry) :=
  fx.filterMap fun | .commit i e => some (i, e) | _ => none

/-- The commands among entries `es` that have the indexes `i`, `i + 1`, ... -/
def commandsFrom : Nat → List Entry → List (Nat × Entry)
  | _, [] => []
  | i, e :: es => (if e.isApp then [(i, e)] else []) ++ commandsFrom (i + 1) es

/-! ## C33 -/

theorem ap_step (x : Input) (s : Srv) : CPath (x = .apply) (x.isJoin = true) (x.isSnap = true) s.cs
    (x.run { s with trace := [] }).2.trace (x.run { s with trace := [] }).2.cs := by
  obtain ⟨es, ht, hp⟩ := ap_run x { s with trace := [] }
  rw [List.nil_append] at ht
  rw [ht]
  exact hp

/-- C33, without invitations to join: the applied index of a running server never decreases, and the commit index never
decreases as long as no snapshot is installed. -/
theorem commit_index_never_decreases_partial {s s' : Srv} {xs : List Input} {fx : List Eff} (h : Runs s xs fx s')
    (hj : ∀ x ∈ xs, x.isJoin = false) :
    s.smCommit ≤ s'.smCommit ∧ ((∀ x ∈ xs, x.isSnap = false) → s.quickCommit ≤ s'.quickCommit) := by
  induction h with
  | nil => exact ⟨Nat.le_refl _, fun _ => Nat.le_refl _⟩
  | @step s1 s2 xs fx x res _ hr _ ih =>
    obtain ⟨i1, i2⟩ := ih fun y hy => hj y (List.mem_append_left _ hy)
    have hp := ap_step x s1
    rw [hr] at hp
    have hxj : x.isJoin = false := hj x (by simp)
    refine ⟨Nat.le_trans i1 (hp.sm_le (by rw [hxj]; nofun)), fun hs => ?_⟩
    have hxs : x.isSnap = false := hs x (by simp)
    exact Nat.le_trans (i2 fun y hy => hs y (List.mem_append_left _ hy))
      (hp.qc_le (by rw [hxj]; nofun) (by rw [hxs]; nofun))

/-- The last block of a snapshot up to index 1. -/
def snapReq1 : Req :=
  { type := .snpReq, term := 5, src := 2, dst := 1, lastTerm := 5, lastIdx := 1, commitIdx := 1,
    entries := [⟨5, .snpSync⟩], sync := some ⟨⟨1, 5, ⟨1, 0, conf3.servers⟩, 3⟩, 0, [1, 2, 3], true⟩ }

/-- C33 fails when a snapshot is installed: after an append request that commits index 2, a snapshot up to index 1 (index
2 has not been applied yet) sets the commit index back to 1. -/
theorem snapshot_lowers_commit_index :
    ∃ n n' fx gx, Hist node1 (Node.fresh conf3) [.req (appendReqOf 2 5 0 0 [⟨5, .app 1⟩, ⟨5, .app 2⟩] 2)] fx n ∧
      Hist node1 n [.req snapReq1] gx n' ∧ (n.up.map Srv.quickCommit = some 2) ∧ (n'.up.map Srv.quickCommit = some 1) := by
  have h0 : Hist node1 (Node.fresh conf3) ([] ++ (none : Option Input).toList) ([] ++ []) _ := .step .nil .boot
  obtain ⟨n, fx, h, hp⟩ := Node.witness (c := node1) (n := Node.fresh conf3)
    [.start, .go (.req (appendReqOf 2 5 0 0 [⟨5, .app 1⟩, ⟨5, .app 2⟩] 2))]
    (fun n _ => decide (n.up.map Srv.quickCommit = some 2) &&
      n.check node1 [.go (.req snapReq1)] fun n' _ => decide (n'.up.map Srv.quickCommit = some 1)) (by decide +kernel)
  simp only [Bool.and_eq_true, decide_eq_true_eq] at hp
  obtain ⟨n', gx, h', hp'⟩ := Node.witness _ _ hp.2
  exact ⟨n, n', fx, gx, h, h', hp.1, of_decide_eq_true hp'⟩

/-- C33 fails for invitations to join: they set commit index and applied index back to 0. -/
theorem join_resets_commit_index :
    ∃ n n' fx gx, Hist node1 (Node.fresh conf3) [.req (appendReqOf 2 5 0 0 [⟨5, .app 1⟩, ⟨5, .app 2⟩] 2), .apply] fx n ∧
      Hist node1 n [.req (joinReqOf 2 5)] gx n' ∧
      (n.up.map fun s => (s.quickCommit, s.smCommit)) = some (2, 1) ∧
      (n'.up.map fun s => (s.quickCommit, s.smCommit)) = some (0, 0) := by
  obtain ⟨n, fx, h, hp⟩ := Node.witness (c := node1) (n := Node.fresh conf3)
    [.start, .go (.req (appendReqOf 2 5 0 0 [⟨5, .app 1⟩, ⟨5, .app 2⟩] 2)), .go .apply]
    (fun n _ => decide ((n.up.map fun s => (s.quickCommit, s.smCommit)) = some (2, 1)) &&
      n.check node1 [.go (.req (joinReqOf 2 5))] fun n' _ =>
        decide ((n'.up.map fun s => (s.quickCommit, s.smCommit)) = some (0, 0))) (by decide +kernel)
  simp only [Bool.and_eq_true, decide_eq_true_eq] at hp
  obtain ⟨n', gx, h', hp'⟩ := Node.witness _ _ hp.2
  exact ⟨n, n', fx, gx, h, h', hp.1, of_decide_eq_true hp'⟩

/-! ## C34 -/

theorem commits_append (xs ys : List Eff) : commits (xs ++ ys) = commits xs ++ commits ys := List.filterMap_append ..

theorem mem_commits {fx : List Eff} {i : Nat} {e : Entry} : (i, e) ∈ commits fx ↔ Eff.commit i e ∈ fx := by
  unfold commits
  rw [List.mem_filterMap]
  constructor
  · rintro ⟨x, hx, h⟩
    cases x <;> cases h
    exact hx
  · intro h; exact ⟨_, h, rfl⟩

theorem quiet_commits {e : Eff} (h : e.Quiet) : commits [e] = [] := by cases e <;> first | rfl | cases h
theorem onLog_commits {e : Eff} {l l' : Log} (h : e.onLog l = some l') : commits [e] = [] := by
  cases e <;> first | rfl | cases h

/-- No commands are handed over except by the commit thread. -/
theorem CPath.no_commits {A J I : Prop} {a b : CS} {es : List Eff} (h : CPath A J I a es b) (hA : ¬A) :
    commits es = [] := by
  induction h with
  | nil => rfl
  | cons h _ ih =>
    rw [commits_append, ih, List.append_nil]
    cases h with
    | apply a => exact absurd a hA
    | quiet hq => exact quiet_commits hq
    | log hq => exact onLog_commits hq
    | _ => rfl

theorem CPath.sm_eq {A J I : Prop} {a b : CS} {es : List Eff} (h : CPath A J I a es b) (hA : ¬A) (hJ : ¬J) (hI : ¬I) :
    b.sm = a.sm := by
  induction h with
  | nil => rfl
  | cons h _ ih =>
    rw [ih]
    cases h with
    | apply a => exact absurd a hA
    | join a => exact absurd a hJ
    | install a => exact absurd a hI
    | _ => rfl

theorem ap_commitsFree {α : Type} {m : R α} (h : ∀ {A J I : Prop}, Pres (AP A J I) m) (s : Srv) :
    ∃ es, (m s).2.trace = s.trace ++ es ∧ commits es = [] ∧ (m s).2.smCommit = s.smCommit := by
  obtain ⟨es, ht, hp⟩ := h (A := False) (J := False) (I := False) s
  exact ⟨es, ht, hp.no_commits nofun, hp.sm_eq nofun nofun nofun⟩

/-- One iteration of the commit thread. -/
theorem applyOne_spec (s : Srv) :
    (s.canApply = false ∧ applyOne s = (.ok ⟨⟩, s)) ∨
    (s.canApply = true ∧ s.log.get? (s.smCommit + 1) = none ∧ 
      ((applyOne s).1 = .error .ub ∨ (applyOne s).1 = .error (.exit (-1))) ∧
      ∃ es, (applyOne s).2.trace = s.trace ++ es ∧ commits es = []) ∨
    (s.canApply = true ∧ ∃ e es, s.log.get? (s.smCommit + 1) = some e ∧ (applyOne s).2.smCommit = s.smCommit + 1 ∧
      (applyOne s).2.trace = s.trace ++ es ∧ commits es = if e.isApp then [(s.smCommit + 1, e)] else []) := by
  by_cases h : s.canApply = true
  · right
    unfold applyOne
    rw [bind_get, if_pos h, bind_modify]
    rcases he : s.log.get? (s.smCommit + 1) with _ | e
    · left
      rcases entryToApply_none (s := { s with smCommit := s.smCommit + 1 }) he with ⟨_, h1⟩ | ⟨_, h1⟩
      · rw [run_bind_err h1]; exact ⟨h, rfl, .inr rfl, _, rfl, rfl⟩
      · rw [run_bind_err h1]; exact ⟨h, rfl, .inl rfl, [], (List.append_nil _).symm, rfl⟩
    · right
      refine ⟨h, e, ?_⟩
      rw [run_bind_ok (entryToApply_some (s := { s with smCommit := s.smCommit + 1 }) he)]
      have hs := ap_commitsFree (m := snapshotAndCompact (s.smCommit + 1)) (ap_snapshotAndCompact _)
      obtain ⟨t, v⟩ := e
      cases v with
      | app d =>
        show ∃ es, _ ∧ ((emit (.commit (s.smCommit + 1) ⟨t, .app d⟩) >>= fun _ => snapshotAndCompact (s.smCommit + 1)) _).2.smCommit =
          _ ∧ ((emit (.commit (s.smCommit + 1) ⟨t, .app d⟩) >>= fun _ => snapshotAndCompact (s.smCommit + 1)) _).2.trace = _ ∧ _
        rw [bind_emit]
        obtain ⟨es, h1, h2, h3⟩ := hs { s with
          smCommit := s.smCommit + 1, trace := s.trace ++ [.commit (s.smCommit + 1) ⟨t, .app d⟩] }
        refine ⟨[.commit (s.smCommit + 1) ⟨t, .app d⟩] ++ es, rfl, h3, by rw [h1, List.append_assoc], ?_⟩
        rw [commits_append, h2]
        rfl
      | conf c =>
        have hc : ∀ {A J I : Prop}, Pres (AP A J I) (commitConf c >>= fun _ => snapshotAndCompact (s.smCommit + 1)) :=
          pres_bind apo (ap_commitConf c) fun _ => ap_snapshotAndCompact _
        obtain ⟨es, h1, h2, h3⟩ := ap_commitsFree hc { s with smCommit := s.smCommit + 1 }
        exact ⟨es, rfl, h3, h1, h2⟩
      | _ =>
        obtain ⟨es, h1, h2, h3⟩ := hs { s with smCommit := s.smCommit + 1 }
        exact ⟨es, rfl, h3, h1, h2⟩
  · left
    have h' : s.canApply = false := by simpa using h
    unfold applyOne
    rw [bind_get, if_neg h]
    exact ⟨h', rfl⟩

/-- C34, one command: only the commit thread hands commands to the state machine; it hands over the entry that the log has
at the index after the applied index, and this index is not beyond the commit index. -/
theorem command_is_next (x : Input) (s : Srv) {i : Nat} {e : Entry}
    (h : Eff.commit i e ∈ (x.run { s with trace := [] }).2.trace) :
    x = .apply ∧ i = s.smCommit + 1 ∧ i ≤ s.quickCommit ∧ s.log.get? i = some e := by
  by_cases hx : x = .apply
  · subst hx
    refine ⟨rfl, ?_⟩
    have h' : Eff.commit i e ∈ (applyOne { s with trace := [] }).2.trace := h
    rcases applyOne_spec { s with trace := [] } with ⟨_, h1⟩ | ⟨_, _, _, es, h1, h2⟩ | ⟨hc, e', es, h1, h2, h3, h4⟩
    · rw [h1] at h'; cases h'
    · rw [h1, List.nil_append, ← mem_commits, h2] at h'; cases h'
    · rw [h3, List.nil_append, ← mem_commits, h4] at h'
      by_cases ha : e'.isApp = true
      · rw [if_pos ha, List.mem_singleton] at h'
        cases h'
        have hc' : s.smCommit < s.quickCommit ∧ s.smCommit < s.log.next - 1 := by
          have : (decide (s.smCommit < s.quickCommit) && decide (s.smCommit < s.log.next - 1)) = true := hc
          simpa using this
        exact ⟨rfl, hc'.1, h1⟩
      · rw [if_neg ha] at h'; cases h'
  · have := (ap_step x s).no_commits hx
    rw [← mem_commits, this] at h
    cases h

theorem commandsFrom_append : ∀ (es fs : List Entry) (i : Nat),
    commandsFrom i (es ++ fs) = commandsFrom i es ++ commandsFrom (i + es.length) fs
  | [], fs, i => rfl
  | e :: es, fs, i => by
    show _ ++ commandsFrom (i + 1) (es ++ fs) = (_ ++ _) ++ _
    rw [commandsFrom_append es fs (i + 1), List.append_assoc, List.length_cons, Nat.add_right_comm, Nat.add_assoc]

/-- C34, order, without invitations to join: while a server runs, between installations of snapshots, the state machine gets exactly the commands among
the entries at the indexes after the applied index, in this order, each once, none left out: `es` are the entries, the
first at the index after the applied index at the start, the last at the applied index at the end. With `command_is_next`
each is the entry of the log at the time. -/
theorem applied_in_order_partial {s s' : Srv} {xs : List Input} {fx : List Eff} (h : Runs s xs fx s')
    (hx : ∀ x ∈ xs, x.isJoin = false ∧ x.isSnap = false) :
    ∃ es : List Entry, s'.smCommit = s.smCommit + es.length ∧ commits fx = commandsFrom (s.smCommit + 1) es := by
  induction h with
  | nil => exact ⟨[], rfl, rfl⟩
  | @step s1 s2 xs fx x res _ hr hres ih =>
    obtain ⟨es, i1, i2⟩ := ih fun y hy => hx y (List.mem_append_left _ hy)
    obtain ⟨hj, hs⟩ := hx x (by simp)
    have hp := ap_step x s1
    rw [hr] at hp
    rw [commits_append]
    by_cases ha : x = .apply
    · subst ha
      have hr' : applyOne { s1 with trace := [] } = (res, s2) := hr
      have key := applyOne_spec { s1 with trace := [] }
      rw [hr'] at key
      rcases key with ⟨_, h1⟩ | ⟨_, _, h1, _⟩ | ⟨_, e, gs, _, h2, h3, h4⟩
      · cases h1
        exact ⟨es, i1, by rw [i2]; exact List.append_nil _⟩
      · have h1' : res = .error .ub ∨ res = .error (.exit (-1)) := h1
        rcases hres with h | h <;> rw [h] at h1' <;> rcases h1' with h1' | h1' <;> cases h1'
      · refine ⟨es ++ [e], ?_, ?_⟩
        · rw [show s2.smCommit = s1.smCommit + 1 from h2, i1, List.length_append]
          rfl
        · have h3' : s2.trace = gs := h3
          have h4' : commits gs = if e.isApp then [(s1.smCommit + 1, e)] else [] := h4
          rw [h3', h4', i2, commandsFrom_append, i1, Nat.add_right_comm]
          show _ = _ ++ ((if e.isApp then _ else []) ++ [])
          rw [List.append_nil]
    · refine ⟨es, ?_, ?_⟩
      · have := hp.sm_eq ha (by rw [hj]; nofun) (by rw [hs]; nofun)
        rw [show s2.smCommit = s1.smCommit from this, i1]
      · rw [hp.no_commits ha, i2, List.append_nil]

/-- Two commands and a configuration entry between them. -/
example : ∃ n fx, Hist node1 (Node.fresh conf3)
    [.req (appendReqOf 2 5 0 0 [⟨5, .app 7⟩, ⟨5, .conf ⟨2, 0, conf3.servers⟩⟩, ⟨5, .app 8⟩] 3), .apply, .apply, .apply] fx n ∧
    commits fx = [(1, ⟨5, .app 7⟩), (3, ⟨5, .app 8⟩)] := by
  obtain ⟨n, fx, h, hp⟩ := Node.witness (c := node1) (n := Node.fresh conf3)
    [.start, .go (.req (appendReqOf 2 5 0 0 [⟨5, .app 7⟩, ⟨5, .conf ⟨2, 0, conf3.servers⟩⟩, ⟨5, .app 8⟩] 3)),
     .go .apply, .go .apply, .go .apply]
    (fun _ fx => decide (commits fx = [(1, ⟨5, .app 7⟩), (3, ⟨5, .app 8⟩)])) (by decide +kernel)
  exact ⟨n, fx, h, of_decide_eq_true hp⟩

/-! ### Restarts -/

/-- The indexes up to which the state machine has got everything, in order of the calls. -/
def marks (es : List Eff) : List Nat :=
  es.filterMap fun | .commit i _ => some i | .applySnp q => some q.lastIdx | _ => none

theorem marks_append (xs ys : List Eff) : marks (xs ++ ys) = marks xs ++ marks ys := List.filterMap_append ..

theorem applied_after (es : List Eff) : ∀ d : Disk,
    (d.afterAll es).applied = d.applied ∧ marks es = [] ∨ (d.afterAll es).applied ∈ marks es := by
  induction es with
  | nil => exact fun d => .inl ⟨rfl, rfl⟩
  | cons e es ih =>
    intro d
    have key : (d.after e).applied = d.applied ∧ marks [e] = [] ∨ marks [e] = [(d.after e).applied] := by
      cases e <;> first | exact .inl ⟨rfl, rfl⟩ | exact .inr rfl
    have hm : marks (e :: es) = marks [e] ++ marks es := marks_append [e] es
    rw [hm]
    show (((d.after e).afterAll es).applied = d.applied ∧ _) ∨ ((d.after e).afterAll es).applied ∈ _
    rcases ih (d.after e) with ⟨h1, h2⟩ | h1
    · rw [h1, h2, List.append_nil]
      rcases key with ⟨h3, h4⟩ | h3
      · exact .inl ⟨h3, h4⟩
      · right; rw [h3]; exact List.mem_singleton.2 rfl
    · exact .inr (List.mem_append_right _ h1)

theorem mem_marks {es : List Eff} {m : Nat} (h : m ∈ marks es) :
    (∃ e, Eff.commit m e ∈ es) ∨ ∃ q, Eff.applySnp q ∈ es ∧ q.lastIdx = m := by
  unfold marks at h
  obtain ⟨x, hx, h⟩ := List.mem_filterMap.1 h
  cases x <;> cases h
  · exact .inl ⟨_, hx⟩
  · exact .inr ⟨_, hx, rfl⟩

theorem CStep.snap_gt {A J I : Prop} {a b : CS} {es : List Eff} (h : CStep A J I a es b) {q : Snap}
    (hq : Eff.applySnp q ∈ es) : I ∧ a.sm < q.lastIdx := by
  cases h with
  | quiet h => rw [← List.mem_singleton.1 hq] at h; cases h
  | log h => rw [← List.mem_singleton.1 hq] at h; cases h
  | advance h => cases List.mem_singleton.1 hq
  | snap hI h => cases List.mem_singleton.1 hq; exact ⟨hI, h⟩
  | apply =>
    exfalso
    unfold CS.applied at hq
    split at hq
    · split at hq
      · cases List.mem_singleton.1 hq
      · cases hq
    · cases hq
  | install => cases hq
  | join => cases hq

theorem CPath.snap_gt {A J I : Prop} {a b : CS} {es : List Eff} (h : CPath A J I a es b) (hJ : ¬J) {q : Snap}
    (hq : Eff.applySnp q ∈ es) : I ∧ a.sm < q.lastIdx := by
  induction h with
  | nil => cases hq
  | cons h _ ih =>
    rcases List.mem_append.1 hq with hq | hq
    · exact h.snap_gt hq
    · have h1 := CPath.sm_le (.cons (es := []) h .nil) hJ
      exact ⟨(ih hq).1, Nat.lt_of_le_of_lt h1 (ih hq).2⟩

/-- A snapshot that has been handed to the state machine counts as applied, if the server survives. -/
def SnapCounts {α : Type} (s : Srv) (m : R α) : Prop :=
  ∀ res s', m s = (res, s') → ((∃ a, res = .ok a) ∨ res = .error .thrown) →
    ∃ es, s'.trace = s.trace ++ es ∧ ∀ q, Eff.applySnp q ∈ es → q.lastIdx ≤ s'.smCommit

theorem SnapCounts.of_free {α : Type} {m : R α} {s : Srv} (h : AP True False False s (m s).2) : SnapCounts s m := by
  intro res s' hr _
  rw [hr] at h
  obtain ⟨es, ht, hp⟩ := h
  exact ⟨es, ht, fun q hq => absurd (hp.snap_gt nofun hq).1 nofun⟩

theorem SnapCounts.after {α β : Type} {m : R α} {k : α → R β} {s : Srv} (h1 : Pres (AP True False False) m)
    (h2 : ∀ a s1, m s = (.ok a, s1) → SnapCounts s1 (k a)) : SnapCounts s (m >>= k) := by
  have h0 := h1 s
  intro res s' hr hres
  rw [run_bind] at hr
  rcases hm : m s with ⟨e | a, s1⟩
  · rw [hm] at hr h0
    cases hr
    obtain ⟨es, ht, hp⟩ := h0
    exact ⟨es, ht, fun q hq => absurd (hp.snap_gt nofun hq).1 nofun⟩
  · rw [hm] at hr h0
    obtain ⟨es, ht, hp⟩ := h0
    obtain ⟨fs, ht2, hs⟩ := h2 a s1 hm res s' hr hres
    refine ⟨es ++ fs, by rw [ht2, ht, List.append_assoc], fun q hq => ?_⟩
    rcases List.mem_append.1 hq with hq | hq
    · exact absurd (hp.snap_gt nofun hq).1 nofun
    · exact hs q hq

theorem SnapCounts.before {α β : Type} {m : R α} {k : α → R β} {s : Srv} (h1 : SnapCounts s m)
    (h2 : ∀ a, Pres (AP True False False) (k a)) : SnapCounts s (m >>= k) := by
  intro res s' hr hres
  rw [run_bind] at hr
  rcases hm : m s with ⟨e | a, s1⟩
  · rw [hm] at hr
    cases hr
    refine h1 _ _ hm ?_
    rcases hres with ⟨_, h⟩ | h
    · cases h
    · cases h; exact .inr rfl
  · rw [hm] at hr
    obtain ⟨es, ht, hs⟩ := h1 _ _ hm (.inl ⟨a, rfl⟩)
    have hk := h2 a s1
    have hr' : k a s1 = (res, s') := hr
    rw [hr'] at hk
    obtain ⟨fs, ht2, hp⟩ := hk
    refine ⟨es ++ fs, by rw [ht2, ht, List.append_assoc], fun q hq => ?_⟩
    rcases List.mem_append.1 hq with hq | hq
    · exact Nat.le_trans (hs q hq) (hp.sm_le nofun)
    · exact absurd (hp.snap_gt nofun hq).1 nofun

/-- `reconfigure` does not throw. -/
def NoThrow {α : Type} (m : R α) : Prop := ∀ s, (m s).1 ≠ .error .thrown

theorem nt_pure {α : Type} (a : α) : NoThrow (pure a : R α) := fun _ h => by cases h
theorem nt_get : NoThrow (get : R Srv) := fun _ h => by cases h
theorem nt_modify (f : Srv → Srv) : NoThrow (modify f : R PUnit) := fun _ h => by cases h
theorem nt_die {α : Type} (c : Int) : NoThrow (die c : R α) := fun _ h => by cases h
theorem nt_emit (e : Eff) : NoThrow (emit e) := fun _ h => by cases h
theorem nt_modPeer (r : PeerRef) (f : Peer → Peer) : NoThrow (modPeer r f) := fun _ h => by cases h
theorem nt_bind {α β : Type} {m : R α} {k : α → R β} (h1 : NoThrow m) (h2 : ∀ a, NoThrow (k a)) : NoThrow (m >>= k) := by
  intro s h
  rw [run_bind] at h
  rcases hm : m s with ⟨e | a, s'⟩
  · rw [hm] at h; exact h1 s (by rw [hm]; exact congrArg Except.error (Except.error.inj h))
  · rw [hm] at h; exact h2 a s' h
theorem nt_ite {α : Type} {c : Prop} [Decidable c] {a b : R α} (h1 : NoThrow a) (h2 : NoThrow b) :
    NoThrow (if c then a else b) := by split <;> assumption
theorem nt_forEach {α : Type} {f : α → R Unit} (h : ∀ a, NoThrow (f a)) : ∀ as, NoThrow (forEach f as)
  | [] => nt_pure _
  | a :: as => nt_bind (h a) fun _ => nt_forEach h as

theorem nt_enableHb (r : PeerRef) : NoThrow (enableHb r) := by
  unfold enableHb
  exact nt_bind nt_get fun _ => nt_modPeer _ _
theorem nt_addPeer (c : SrvCfg) : NoThrow (addPeer c) := by
  unfold addPeer
  refine nt_bind (nt_modify _) fun _ => nt_bind nt_get fun s => nt_ite ?_ (nt_pure _)
  refine nt_bind (nt_enableHb _) fun _ => ?_
  split
  · exact nt_ite (nt_bind (nt_modPeer _ _) fun _ => nt_modify _) (nt_pure _)
  · exact nt_pure _
theorem nt_removePeer (c : Config) (i : Int) : NoThrow (removePeer c i) := by
  unfold removePeer
  exact nt_bind nt_get fun s => nt_ite (nt_bind (nt_emit _) fun _ => nt_die _) (nt_modify _)
theorem nt_reconfigure (c : Config) : NoThrow (reconfigure c) := by
  unfold reconfigure
  exact nt_bind nt_get fun s => nt_bind (nt_forEach nt_addPeer _) fun _ => nt_bind (nt_forEach (nt_removePeer c) _) fun _ =>
    nt_modify _

theorem snapCounts_install (q : Snap) (s : Srv) : SnapCounts s (installSnapshot q) := by
  unfold installSnapshot
  refine SnapCounts.after (pres_get apo) fun a s1 h => ?_
  cases h
  split
  · exact .of_free (ap_die _ s)
  refine SnapCounts.after (ap_logCompact _) fun ok s1 _ => ?_
  cases ok with
  | false => exact .of_free (AP.refl s1)
  | true =>
  simp only [if_true]
  refine SnapCounts.after ap_stop fun _ s2 _ => ?_
  intro res s' hr hres
  rw [bind_emit] at hr
  by_cases hq : s.env.applySnp q = false
  · rw [if_pos hq, run_die] at hr
    cases hr
    rcases hres with ⟨_, h⟩ | h <;> cases h
  rw [if_neg hq, bind_modify] at hr
  have h4 := ap_reconfigure (A := True) (J := False) (I := False) q.config
    { s2 with smSnap := some q, trace := s2.trace ++ [.applySnp q] }
  have h5 := nt_reconfigure q.config { s2 with smSnap := some q, trace := s2.trace ++ [.applySnp q] }
  rw [run_bind] at hr
  rcases hm : reconfigure q.config { s2 with smSnap := some q, trace := s2.trace ++ [.applySnp q] } with ⟨e | u, s3⟩
  · rw [hm] at hr h5
    exfalso
    apply h5
    have hr' := congrArg Prod.fst hr
    simp only [] at hr'
    rcases hres with ⟨_, h⟩ | h
    · rw [h] at hr'; cases hr'
    · rw [h] at hr'; exact congrArg Except.error (Except.error.inj hr')
  · rw [hm] at hr h4
    obtain ⟨es, ht, hp⟩ := h4
    simp only [] at hr
    rw [bind_get, bind_emit, bind_modify] at hr
    have h6 : Pres (AP True False False) (do
        saveState
        modify fun s => { s with lastSnap := some { q with config := s.config } }
        restartElectionTimer
        pure true : R Bool) := by
      pres apo using ap_saveState, ap_mod, ap_restart
      all_goals exact ⟨rfl, rfl, rfl, rfl⟩
    have h7 := h6 { s3 with
      smCommit := q.lastIdx, quickCommit := q.lastIdx, trace := s3.trace ++ [.saveConfig s3.config] }
    have hr' := congrArg Prod.snd hr
    simp only [] at hr'
    obtain ⟨fs, ht2, hp2⟩ := h7
    have hle : q.lastIdx ≤ s'.smCommit := by rw [← hr']; exact hp2.sm_le nofun
    refine ⟨[.applySnp q] ++ es ++ ([.saveConfig s3.config] ++ fs), ?_, ?_⟩
    · rw [← hr', ht2]
      show s3.trace ++ _ ++ _ = _
      rw [ht]
      simp only [List.append_assoc]
    · intro q' hq'
      rcases List.mem_append.1 hq' with hq' | hq'
      · rcases List.mem_append.1 hq' with hq' | hq'
        · cases List.mem_singleton.1 hq'; exact hle
        · exact absurd (hp.snap_gt nofun hq').1 nofun
      · rcases List.mem_append.1 hq' with hq' | hq'
        · cases List.mem_singleton.1 hq'
        · exact absurd (hp2.snap_gt nofun hq').1 nofun

theorem snapCounts_handle (r : Req) (s : Srv) : SnapCounts s (handleInstallSnapshot r) := by
  unfold handleInstallSnapshot
  refine SnapCounts.after (ap_hearSnapshotLeader r) fun _ s1 _ => SnapCounts.after (pres_get apo) fun a s2 h => ?_
  cases h
  split
  · exact .of_free (AP.refl s1)
  split
  · rename_i q _ _
    split
    · exact .of_free (AP.refl s1)
    · refine SnapCounts.before ?_ fun ok => by cases ok <;> exact pres_pure apo _
      unfold handleSnapshotSync
      refine SnapCounts.after (ap_emit (by trivial)) fun _ s3 _ => ?_
      split
      · refine SnapCounts.after (pres_get apo) fun a s4 h => ?_
        cases h
        split
        · exact .of_free (ap_die _ s3)
        · exact snapCounts_install _ s3
      · exact .of_free (AP.refl s3)
  · exact .of_free (AP.refl s1)

theorem snapCounts_run (x : Input) (hj : x.isJoin = false) (s : Srv) : SnapCounts s x.run := by
  by_cases hs : x.isSnap = true
  · cases x with
    | req r =>
      have ht : r.type = .snpReq := by simpa [Input.isSnap] using hs
      have hd : dispatch r = handleInstallSnapshot r := by unfold dispatch handleExtended; rw [ht]
      show SnapCounts s (processReq r >>= fun resp => emit (.reply resp))
      refine SnapCounts.before ?_ fun q => ap_emit (by trivial)
      unfold processReq
      refine SnapCounts.after (ap_hearTerm r) fun _ s1 _ => ?_
      rw [hd]
      exact snapCounts_handle r s1
    | _ => cases hs
  · have h := ap_run x s
    rw [hj, show x.isSnap = false by simpa using hs] at h
    intro res s' hr _
    rw [hr] at h
    obtain ⟨es, ht, hp⟩ := h
    exact ⟨es, ht, fun q hq => absurd (hp.snap_gt nofun hq).1 nofun⟩

/-- What is known about commands along a history. -/
structure CommandsOk (n : Node) (fx : List Eff) : Prop where
  le : ∀ i e, Eff.commit i e ∈ fx → i ≤ n.disk.applied
  up : ∀ s, n.up = some s → n.disk.applied ≤ s.smCommit
  inc : (commits fx).Pairwise fun a b => a.1 < b.1

theorem CommandsOk.extend {d : Disk} {s : Srv} {x : Input} {es fx : List Eff} (h : CommandsOk ⟨d, some s⟩ fx)
    (hj : x.isJoin = false) (he : es <+: (x.run { s with trace := [] }).2.trace) :
    CommandsOk ⟨d.afterAll es, none⟩ (fx ++ es) := by
  have hsub : ∀ e ∈ es, e ∈ (x.run { s with trace := [] }).2.trace := fun e h => he.subset h
  have hd := h.up s rfl
  have hgt : ∀ m ∈ marks es, s.smCommit < m := by
    intro m hm
    rcases mem_marks hm with ⟨e, hc⟩ | ⟨q, hq, rfl⟩
    · have := (command_is_next x s (hsub _ hc)).2.1; omega
    · exact ((ap_step x s).snap_gt (by rw [hj]; nofun) (hsub _ hq)).2
  have hge : d.applied ≤ (d.afterAll es).applied := by
    rcases applied_after es d with ⟨h1, _⟩ | h1
    · rw [h1]; exact Nat.le_refl _
    · have := hgt _ h1; simp only [] at hd; omega
  have hidx : ∀ c ∈ commits es, c.1 = s.smCommit + 1 := fun c hc =>
    (command_is_next x s (hsub _ (mem_commits.1 hc))).2.1
  refine ⟨?_, fun _ h => (by cases h), ?_⟩
  · intro i e hi
    rcases List.mem_append.1 hi with hi | hi
    · exact Nat.le_trans (h.le i e hi) hge
    · have h1 := (command_is_next x s (hsub _ hi)).2.1
      have h2 : i ∈ marks es := by
        unfold marks
        exact List.mem_filterMap.2 ⟨_, hi, rfl⟩
      rcases applied_after es d with ⟨_, h3⟩ | h3
      · rw [h3] at h2; cases h2
      · have := hgt _ h3
        show i ≤ (d.afterAll es).applied
        omega
  · rw [commits_append, List.pairwise_append]
    refine ⟨h.inc, ?_, ?_⟩
    · -- at most one command
      have hlen : (commits es).length ≤ 1 := by
        have hpre : commits es <+: commits (x.run { s with trace := [] }).2.trace := by
          obtain ⟨t, ht⟩ := he
          rw [← ht, commits_append]
          exact List.prefix_append _ _
        refine Nat.le_trans hpre.length_le ?_
        by_cases ha : x = .apply
        · subst ha
          show (commits (applyOne { s with trace := [] }).2.trace).length ≤ 1
          rcases applyOne_spec { s with trace := [] } with ⟨_, h1⟩ | ⟨_, _, _, es, h1, h2⟩ | ⟨_, e', fs, _, _, h3, h4⟩
          · rw [h1]; exact Nat.zero_le _
          · rw [h1, List.nil_append, h2]; exact Nat.zero_le _
          · rw [h3, List.nil_append, h4]
            split
            · exact Nat.le_refl _
            · exact Nat.zero_le _
        · rw [(ap_step x s).no_commits ha]; exact Nat.zero_le _
      rcases hc : commits es with _ | ⟨c, _ | ⟨c', cs⟩⟩
      · exact .nil
      · exact List.pairwise_singleton _ _
      · rw [hc] at hlen; simp at hlen
    · intro a ha b hb
      have h1 := h.le a.1 a.2 (mem_commits.1 ha)
      have h2 := hidx b hb
      simp only [] at h1 hd
      omega

theorem CommandsOk.live {d : Disk} {s s' : Srv} {x : Input} {res : Except Fault Unit} {fx : List Eff}
    (h : CommandsOk ⟨d, some s⟩ fx) (hj : x.isJoin = false) (hr : x.run { s with trace := [] } = (res, s'))
    (hres : res = .ok ⟨⟩ ∨ res = .error .thrown) : CommandsOk ⟨d.afterAll s'.trace, some s'⟩ (fx ++ s'.trace) := by
  have he : s'.trace <+: (x.run { s with trace := [] }).2.trace := by rw [hr]; exact List.prefix_refl _
  obtain ⟨h1, _, h3⟩ := h.extend hj he
  refine ⟨h1, ?_, h3⟩
  rintro s'' ⟨⟩
  have hp := ap_step x s
  rw [hr] at hp
  have hsm : s.smCommit ≤ s'.smCommit := hp.sm_le (by rw [hj]; nofun)
  show (d.afterAll s'.trace).applied ≤ s'.smCommit
  rcases applied_after s'.trace d with ⟨h4, _⟩ | h4
  · rw [h4]
    have := h.up s rfl
    simp only [] at this
    omega
  · rcases mem_marks h4 with ⟨e, hc⟩ | ⟨q, hq, h5⟩
    · obtain ⟨rfl, hi, _⟩ := command_is_next x s (by rw [hr]; exact hc)
      have key := applyOne_spec { s with trace := [] }
      have hr' : applyOne { s with trace := [] } = (res, s') := hr
      rw [hr'] at key
      rcases key with ⟨_, h1⟩ | ⟨_, _, _, es, h1, h2⟩ | ⟨_, e', fs, _, h2, _⟩
      · cases h1; cases hc
      · have h1' : s'.trace = es := h1
        rw [h1', ← mem_commits, h2] at hc; cases hc
      · have h2' : s'.smCommit = s.smCommit + 1 := h2
        omega
    · obtain ⟨es, ht, hs⟩ := snapCounts_run x hj { s with trace := [] } res s' hr (by
        rcases hres with h | h
        · exact .inl ⟨_, h⟩
        · exact .inr h)
      rw [List.nil_append] at ht
      rw [← h5]
      exact hs q (by rw [← ht]; exact hq)

/-- C34 across restarts, without invitations to join: whatever happens, including crashes after any effect and snapshots,
the indexes at which the state machine gets commands are strictly increasing; no command is handed over twice. (The state
machine is assumed to remember after a restart what it has got, as `last_commit_index` demands.) -/
theorem commands_never_repeat_partial {c : Setup} {d0 : Disk} {xs : List Input} {fx : List Eff} {n : Node}
    (h : Hist c ⟨d0, none⟩ xs fx n) (hx : ∀ x ∈ xs, x.isJoin = false) :
    (commits fx).Pairwise fun a b => a.1 < b.1 := by
  suffices CommandsOk n fx from this.inc
  induction h with
  | nil => exact ⟨fun _ _ h => (by cases h), fun _ h => (by cases h), .nil⟩
  | @step n1 n2 xs fx es x _ hs ih =>
    have ih := ih fun y hy => hx y (List.mem_append_left _ hy)
    cases hs with
    | @run d s s' x h => exact ih.live (hx x (by simp)) h (.inl rfl)
    | @survive d s s' x h => exact ih.live (hx x (by simp)) h (.inr rfl)
    | @crash d s x es h => exact ih.extend (hx x (by simp)) h
    | @boot d =>
      obtain ⟨h1, _, h3⟩ := ih
      rw [List.append_nil]
      exact ⟨h1, by rintro s ⟨⟩; exact Nat.le_refl _, h3⟩

/-- A server that applies one command, crashes, starts again and goes on. -/
example : ∃ n fx, Hist node1 (Node.fresh conf3)
    [.req (appendReqOf 2 5 0 0 [⟨5, .app 7⟩, ⟨5, .app 8⟩] 2), .apply, .electionTimeout,
     .req (appendReqOf 2 5 0 0 [⟨5, .app 7⟩, ⟨5, .app 8⟩] 2), .apply] fx n ∧
    commits fx = [(1, ⟨5, .app 7⟩), (2, ⟨5, .app 8⟩)] := by
  obtain ⟨n, fx, h, hp⟩ := Node.witness (c := node1) (n := Node.fresh conf3)
    [.start, .go (.req (appendReqOf 2 5 0 0 [⟨5, .app 7⟩, ⟨5, .app 8⟩] 2)), .go .apply, .crash .electionTimeout 0, .start,
     .go (.req (appendReqOf 2 5 0 0 [⟨5, .app 7⟩, ⟨5, .app 8⟩] 2)), .go .apply]
    (fun _ fx => decide (commits fx = [(1, ⟨5, .app 7⟩), (2, ⟨5, .app 8⟩)])) (by decide +kernel)
  exact ⟨n, fx, h, of_decide_eq_true hp⟩

/-- C34 fails for invitations to join: the applied index is set back, and the state machine gets command 1 again. -/
theorem join_repeats_commands : ∃ n fx, Hist node1 (Node.fresh conf3)
    [.req (appendReqOf 2 5 0 0 [⟨5, .app 7⟩] 1), .apply, .req (joinReqOf 2 5), .req (appendReqOf 2 5 0 0 [⟨5, .app 7⟩] 1),
     .apply] fx n ∧
    commits fx = [(1, ⟨5, .app 7⟩), (1, ⟨5, .app 7⟩)] := by
  obtain ⟨n, fx, h, hp⟩ := Node.witness (c := node1) (n := Node.fresh conf3)
    [.start, .go (.req (appendReqOf 2 5 0 0 [⟨5, .app 7⟩] 1)), .go .apply, .go (.req (joinReqOf 2 5)),
     .go (.req (appendReqOf 2 5 0 0 [⟨5, .app 7⟩] 1)), .go .apply]
    (fun _ fx => decide (commits fx = [(1, ⟨5, .app 7⟩), (1, ⟨5, .app 7⟩)])) (by decide +kernel)
  exact ⟨n, fx, h, of_decide_eq_true hp⟩

end Cs.Raft
