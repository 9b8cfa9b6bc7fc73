import Verif.Raft.Walk
import Verif.Raft.Play
import Verif.Raft.PropsVote

/-!
# Making snapshots (C49, C56, C57, C63)
-/

namespace Cs.Raft
open Cs

/-! ## Specification -/

/-- The snapshots the state machine is asked to make. -/
def created (es : List Eff) : List Snap := es.filterMap fun | .createSnp q => some q | _ => none

/-- A server that is not stopped or restarted: the inputs it handles and the effects. Handlers may end by an exception. -/
inductive Alive : Srv → List Input → List Eff → Srv → Prop
  | nil (s : Srv) : Alive s [] [] s
  | step {s s1 s2 : Srv} {xs : List Input} {fx : List Eff} {x : Input} {res : Except Fault Unit} : Alive s xs fx s1 →
      x.run { s1 with trace := [] } = (res, s2) → (res = .ok ⟨⟩ ∨ res = .error .thrown) →
      Alive s (xs ++ [x]) (fx ++ s2.trace) s2

/-! ## One at a time -/

/-- Snapshots asked for between `s` and `s'`. -/
def Sn (s s' : Srv) : Prop :=
  ∃ fx, s'.trace = s.trace ++ fx ∧ ((created fx = [] ∧ (s.snpInProgress = true → s'.snpInProgress = true)) ∨
    ∃ q : Snap, created fx = [q] ∧ q.size = 0 ∧ s.snpInProgress = false ∧ s'.snpInProgress = true)

theorem created_append (a b : List Eff) : created (a ++ b) = created a ++ created b := List.filterMap_append ..

theorem snPo : PO Sn where
  refl s := ⟨[], (List.append_nil _).symm, .inl ⟨rfl, fun h => h⟩⟩
  trans {a b c} h1 h2 := by
    obtain ⟨f1, e1, h1⟩ := h1
    obtain ⟨f2, e2, h2⟩ := h2
    refine ⟨f1 ++ f2, by rw [e2, e1, List.append_assoc], ?_⟩
    rw [created_append]
    rcases h1 with ⟨c1, d1⟩ | ⟨q, c1, d1, g1, k1⟩
    · rw [c1, List.nil_append]
      rcases h2 with ⟨c2, d2⟩ | ⟨q, c2, d2, g2, k2⟩
      · exact .inl ⟨c2, fun h => d2 (d1 h)⟩
      · refine .inr ⟨q, c2, d2, ?_, k2⟩
        rcases ha : a.snpInProgress with _ | _
        · rfl
        · rw [d1 ha] at g2; cases g2
    · rcases h2 with ⟨c2, d2⟩ | ⟨q, c2, d2, g2, k2⟩
      · rw [c2, List.append_nil]
        exact .inr ⟨q, c1, d1, g1, d2 k1⟩
      · rw [k1] at g2; cases g2

theorem Sn.of {s s' : Srv} (h1 : s'.snpInProgress = s.snpInProgress) (fx : List Eff) (h2 : s'.trace = s.trace ++ fx)
    (h3 : created fx = []) : Sn s s' := ⟨fx, h2, .inl ⟨h3, fun h => h1.trans h⟩⟩

theorem Frame.sn {ty : MsgType → Prop} {s s' : Srv} (h : Frame ty s s') : Sn s s' := by
  obtain ⟨ps, j, es, rfl, _, _, h⟩ := h
  refine .of rfl es rfl ?_
  unfold created
  rw [List.filterMap_eq_nil_iff]
  intro e he
  rcases h e he with rfl | ⟨r, rfl, _⟩ <;> rfl

/-- Reading the log. -/
def Reads (s s' : Srv) : Prop := ∃ fx, s' = { s with trace := s.trace ++ fx } ∧ created fx = []
theorem readsPo : PO Reads where
  refl s := ⟨[], by rw [List.append_nil], rfl⟩
  trans {a b c} h1 h2 := by
    obtain ⟨f1, rfl, c1⟩ := h1
    obtain ⟨f2, rfl, c2⟩ := h2
    exact ⟨f1 ++ f2, by rw [← List.append_assoc], by rw [created_append, c1, c2]; rfl⟩
theorem rd_die {α : Type} (c : Int) : Pres Reads (die c : R α) := fun _ => ⟨[.exit c], rfl, rfl⟩
theorem rd_entryAt (i : Nat) : Pres Reads (entryAt i) := by
  unfold entryAt
  pres readsPo using rd_die
theorem rd_termAt (i : Nat) : Pres Reads (termAt i) := by
  unfold termAt
  pres readsPo using rd_die
theorem rd_findConf (i : Nat) : ∀ (n : Nat) (c : Config), Pres Reads (findConf i n c)
  | 0, _ => pres_throw readsPo _
  | n + 1, c => by
    have ih := rd_findConf i n
    unfold findConf
    pres readsPo using rd_entryAt, ih
theorem rd_confForSnap (i : Nat) : Pres Reads (confForSnap i) := by
  unfold confForSnap
  pres readsPo using rd_findConf, rd_die

theorem run_startSnapshot (i : Nat) (s : Srv) :
    (∃ fx, (startSnapshot i s).2 = { s with trace := s.trace ++ fx } ∧ created fx = [] ∧
      ∀ u, (startSnapshot i s).1 ≠ .ok u) ∨
    ∃ fx q, startSnapshot i s = (.ok ⟨⟩, { s with trace := s.trace ++ fx }) ∧ created fx = [q] ∧ q.size = 0 ∧ q.lastIdx = i := by
  unfold startSnapshot
  rw [run_bind]
  have h1 := rd_confForSnap i s
  rcases hc : confForSnap i s with ⟨e | c, s1⟩
  · rw [hc] at h1
    obtain ⟨fx, e1, c1⟩ := h1
    exact .inl ⟨fx, e1, c1, fun _ h => (by cases h)⟩
  rw [hc] at h1
  obtain ⟨f1, e1, c1⟩ := h1
  simp only [] at e1 ⊢
  subst e1
  have h2 := rd_termAt i { s with trace := s.trace ++ f1 }
  rw [run_bind]
  rcases ht : termAt i { s with trace := s.trace ++ f1 } with ⟨e | t, s2⟩
  · rw [ht] at h2
    obtain ⟨fx, e2, c2⟩ := h2
    refine .inl ⟨f1 ++ fx, ?_, by rw [created_append, c1, c2]; rfl, fun _ h => (by cases h)⟩
    rw [← List.append_assoc]
    exact e2
  rw [ht] at h2
  obtain ⟨f2, e2, c2⟩ := h2
  simp only [] at e2 ⊢
  subst e2
  refine .inr ⟨(f1 ++ f2) ++ [.createSnp ⟨i, t, c, 0⟩], ⟨i, t, c, 0⟩, ?_, ?_, rfl, rfl⟩
  · rw [← List.append_assoc, ← List.append_assoc]
    rfl
  · rw [created_append, created_append, c1, c2]
    rfl

theorem sn_snapshotAndCompact (i : Nat) : Pres Sn (snapshotAndCompact i) := by
  intro s
  unfold snapshotAndCompact
  rw [bind_get]
  by_cases hw : wantsSnapshot s i = true
  · rw [if_pos hw, bind_modify]
    have hf : s.snpInProgress = false := by
      unfold wantsSnapshot at hw
      simp only [Bool.and_eq_true] at hw
      simpa using hw.2
    unfold catchThrown
    rcases run_startSnapshot i { s with snpInProgress := true } with ⟨fx, h1, h2, h3⟩ | ⟨fx, q, h1, h2, h3⟩
    · rcases hr : startSnapshot i { s with snpInProgress := true } with ⟨e | u, s1⟩
      · rw [hr] at h1
        simp only [] at h1
        subst h1
        have hx : ∀ b, Sn s { s with trace := s.trace ++ fx, snpInProgress := b } := fun b =>
          ⟨fx, rfl, .inl ⟨h2, fun h => by rw [hf] at h; cases h⟩⟩
        cases e with
        | thrown => exact hx false
        | exit c => exact hx true
        | ub => exact hx true
      · exact absurd (by rw [hr]) (h3 u)
    · rw [h1]
      exact ⟨fx, rfl, .inr ⟨q, h2, h3.1, hf, rfl⟩⟩
  · rw [if_neg hw]
    exact snPo.refl s

instance snWalk0 : Walk0 Sn where
  po := snPo
  calm h1 h2 _ _ := .of h2 [] (by rw [h1, List.append_nil]) rfl
  joinee _ := .of rfl [] (List.append_nil _).symm rfl
  peers _ := .of rfl [] (List.append_nil _).symm rfl
  say {s e} h := .of rfl [e] rfl (by cases e <;> first | rfl | cases h)
  ask i s := (requestAppend_frame (.member i) s).sn

theorem sn_addPeer (s : Srv) (p : Peer) : Sn s { s with peers := s.peers ++ [p] } := .of rfl [] (List.append_nil _).symm rfl
theorem sn_filter (s : Srv) (f : Peer → Bool) : Sn s { s with peers := s.peers.filter f } :=
  .of rfl [] (List.append_nil _).symm rfl

theorem snWalk {x : Input} (hx : ∀ q ok, x ≠ .snapDone q ok) : Walk Sn x where
  sync i t c s := by
    have h := (createSync_frame isRepl .joining i t c s).1.sn
    rw [run_bind]
    rcases hr : createSyncSnapshotReq .joining i t c s with ⟨e | q, s1⟩
    · rw [hr] at h; exact h
    · rw [hr] at h
      exact snPo.trans h (.of rfl [.send q] rfl rfl)
  snap i _ := sn_snapshotAndCompact i
  lead := wk_becomeLeader0 fun i s => (leaderPeer_frame i s).sn
  done q ok h := absurd h (hx q ok)
  invite _ _ _ _ _ _ := .of rfl [] (List.append_nil _).symm rfl
  conf c := wk_commitConf0 (fun s p _ _ => sn_addPeer s p) sn_filter c
  inst q := wk_installSnapshot0 (fun s p _ _ => sn_addPeer s p) sn_filter q
  join r _ _ := wk_handleJoin0 (fun s p _ _ => sn_addPeer s p) sn_filter r
  force _ _ _ _ _ := sn_filter _ _

theorem sn_rpcResult (r : PeerRef) (ty : MsgType) (ok : Bool) : Pres Sn (rpcResult r ty ok) := by
  intro s
  unfold rpcResult
  rw [bind_get, bind_modPeer]
  refine snPo.trans (Frame.setPeer isRepl s r _ ?_).sn (Frame.setPeer isRepl _ r _ ?_).sn
  · intro p; split <;> rfl
  · intro p; cases ok <;> rfl

theorem sn_run {x : Input} (hx : ∀ q ok, x ≠ .snapDone q ok) : Pres Sn x.run := by
  have hw := snWalk hx
  have h := wk_rest (x := x) (Q := Sn)
  cases x with
  | peerResp ty r => exact pres_bind snPo (sn_rpcResult _ _ _) fun _ => h
  | extResp p ty r => exact pres_bind snPo (sn_rpcResult _ _ _) fun _ => h
  | peerErr r => exact sn_rpcResult _ _ _
  | extErr p r => exact pres_bind snPo (sn_rpcResult _ _ _) fun _ => h
  | _ => exact h

/-- C63: as long as the state machine has not answered, it is not asked for another snapshot. The snapshots it is asked for
have size 0. -/
theorem one_snapshot_at_a_time {s s' : Srv} {xs : List Input} {fx : List Eff} (h : Alive s xs fx s')
    (hx : ∀ q ok, Input.snapDone q ok ∉ xs) :
    (created fx).length ≤ 1 ∧ (s.snpInProgress = true → created fx = [] ∧ s'.snpInProgress = true) ∧
    ∀ q ∈ created fx, q.size = 0 := by
  suffices hS : (created fx = [] ∧ (s.snpInProgress = true → s'.snpInProgress = true)) ∨
      ∃ q : Snap, created fx = [q] ∧ q.size = 0 ∧ s.snpInProgress = false ∧ s'.snpInProgress = true by
    rcases hS with ⟨c, d⟩ | ⟨q, c, d, g, k⟩
    · rw [c]
      exact ⟨Nat.zero_le _, fun h => ⟨rfl, d h⟩, by simp⟩
    · rw [c]
      refine ⟨Nat.le_refl _, fun h => ?_, fun q' h => ?_⟩
      · rw [g] at h; cases h
      · rw [List.mem_singleton.1 h]; exact d
  induction h with
  | nil => exact .inl ⟨rfl, fun h => h⟩
  | @step s1 s2 xs fx x res _ hr _ ih =>
    have h1 := ih fun q ok h => hx q ok (List.mem_append_left _ h)
    have h2 := sn_run (x := x) (fun q ok h => hx q ok (by rw [h]; simp)) { s1 with trace := [] }
    rw [hr] at h2
    have h0 : Sn { s with trace := [] } { s1 with trace := fx } := ⟨fx, rfl, h1⟩
    obtain ⟨f2, e2, h2⟩ := h2
    have h3 : Sn { s1 with trace := fx } { s2 with trace := fx ++ f2 } := ⟨f2, rfl, h2⟩
    obtain ⟨f, e, h4⟩ := snPo.trans h0 h3
    have e' : fx ++ f2 = [] ++ f := e
    have e2' : s2.trace = [] ++ f2 := e2
    rw [List.nil_append] at e' e2'
    rw [e2', e']
    exact h4

/-! ## Compaction -/

/-- The state after the report of a finished snapshot, before the log is compacted. -/
def Srv.snapped (s : Srv) (q : Snap) : Srv :=
  { s with
    smSnap := some { q with size := s.env.snpSize q }, trace := s.trace ++ [.madeSnp { q with size := s.env.snpSize q }],
    lastSnap := some q }

theorem run_snapDone_none {s : Srv} {q : Snap} (h : ¬s.params.reserved < q.lastIdx) :
    (Input.snapDone q true).run s = (.ok ⟨⟩, { s.snapped q with snpInProgress := false }) := by
  have h1 : (Input.snapDone q true).run s = (do
      if s.params.reserved < q.lastIdx then do
        let _ ← logCompact (q.lastIdx - s.params.reserved)
        modify fun s => { s with snpInProgress := false }
      else modify fun s => { s with snpInProgress := false } : R Unit) (s.snapped q) := rfl
  rw [h1, if_neg h]
  rfl

theorem run_snapDone_some {s : Srv} {q : Snap} (h : s.params.reserved < q.lastIdx) :
    (Input.snapDone q true).run s = (logCompact (q.lastIdx - s.params.reserved) >>= fun _ =>
      modify fun s => { s with snpInProgress := false } : R Unit) (s.snapped q) := by
  have h1 : (Input.snapDone q true).run s = (do
      if s.params.reserved < q.lastIdx then do
        let _ ← logCompact (q.lastIdx - s.params.reserved)
        modify fun s => { s with snpInProgress := false }
      else modify fun s => { s with snpInProgress := false } : R Unit) (s.snapped q) := rfl
  rw [h1, if_pos h]

theorem logCompact_cases (i : Nat) (s : Srv) :
    (i < s.log.start ∧ logCompact i s = (.error .thrown, s)) ∨
    (s.log.start ≤ i ∧ s.env.compactOk i = true ∧
      logCompact i s = (.ok true, { s with log := s.log.compact i, trace := s.trace ++ [.compact i] })) ∨
    (s.log.start ≤ i ∧ s.env.compactOk i = false ∧ logCompact i s = (.ok false, s)) := by
  unfold logCompact
  rw [bind_get]
  by_cases h1 : i < s.log.start
  · rw [if_pos h1]; exact .inl ⟨h1, rfl⟩
  · rw [if_neg h1]
    by_cases h2 : s.env.compactOk i = true
    · rw [if_pos h2]; exact .inr (.inl ⟨by omega, h2, rfl⟩)
    · rw [if_neg h2]; exact .inr (.inr ⟨by omega, by simpa using h2, rfl⟩)

theorem get_compact {l : Log} {i k : Nat} (h1 : l.start ≤ i) (h2 : i < k) : (l.compact i).get? k = l.get? k := by
  unfold Log.get? Log.compact
  show (if k < i + 1 then none else (l.ents.drop (i + 1 - l.start))[k - (i + 1)]?) = if k < l.start then none else l.ents[k - l.start]?
  rw [if_neg (by omega), if_neg (by omega), List.getElem?_drop]
  congr 1
  omega

/-- C49: when the state machine has finished (or given up) a snapshot, the log is compacted at most up to the index that lies
the configured number of entries below the snapshot, and only if there is such an index; all entries behind it stay. -/
theorem compaction_keeps_reserved (s : Srv) (q : Snap) (ok : Bool) :
    (∀ i, Eff.compact i ∈ ((Input.snapDone q ok).run s).2.trace → Eff.compact i ∈ s.trace ∨
      ok = true ∧ 0 < i ∧ i + s.params.reserved = q.lastIdx) ∧
    ∀ k, q.lastIdx < k + s.params.reserved → ((Input.snapDone q ok).run s).2.log.get? k = s.log.get? k := by
  cases ok with
  | false => exact ⟨fun i h => .inl h, fun k _ => rfl⟩
  | true =>
    have hmade : ∀ i, Eff.compact i ∈ (s.snapped q).trace → Eff.compact i ∈ s.trace := by
      intro i h
      rcases List.mem_append.1 (show _ ∈ s.trace ++ [_] from h) with h | h
      · exact h
      · cases List.mem_singleton.1 h
    by_cases hr : s.params.reserved < q.lastIdx
    · rw [run_snapDone_some hr]
      rcases logCompact_cases (q.lastIdx - s.params.reserved) (s.snapped q) with ⟨h1, h2⟩ | ⟨h1, _, h2⟩ | ⟨h1, _, h2⟩
      · rw [run_bind_err h2]
        exact ⟨fun i h => .inl (hmade i h), fun k _ => rfl⟩
      · rw [run_bind_ok h2]
        refine ⟨fun i h => ?_, fun k hk => ?_⟩
        · rcases List.mem_append.1 (show _ ∈ (s.snapped q).trace ++ [_] from h) with h | h
          · exact .inl (hmade i h)
          · have := List.mem_singleton.1 h
            cases this
            exact .inr ⟨rfl, by omega, by omega⟩
        · exact get_compact h1 (by omega)
      · rw [run_bind_ok h2]
        exact ⟨fun i h => .inl (hmade i h), fun k _ => rfl⟩
    · rw [run_snapDone_none hr]
      exact ⟨fun i h => .inl (hmade i h), fun k _ => rfl⟩

/-- A server with a log of four entries, two of which are to be kept. -/
def fourEntries : Srv :=
  { id := 1, config := conf3, term := 1, params := { reserved := 2 }, snpInProgress := true,
    log := ⟨1, [⟨1, .app 1⟩, ⟨1, .app 2⟩, ⟨1, .app 3⟩, ⟨1, .app 4⟩]⟩ }

/-- The log is compacted, and the entries that have to be kept are there. -/
example : ((Input.snapDone ⟨3, 1, conf3, 0⟩ true).run fourEntries).2.log = ⟨2, [⟨1, .app 2⟩, ⟨1, .app 3⟩, ⟨1, .app 4⟩]⟩ ∧
    ((Input.snapDone ⟨3, 1, conf3, 0⟩ true).run fourEntries).2.log.get? 2 = some ⟨1, .app 2⟩ :=
  ⟨by decide +kernel, (compaction_keeps_reserved fourEntries ⟨3, 1, conf3, 0⟩ true).2 2 (by decide)⟩

/-! ## Snapshots after a snapshot has been installed -/

/-- C57, negative: if the log starts behind the index up to which it has to be compacted, which is so when a snapshot has been
received, the report of a finished snapshot ends by an exception, and no snapshot is made any more until the server is
restarted. -/
theorem snapshots_stop {s : Srv} {q : Snap} (h1 : s.snpInProgress = true) (h2 : s.params.reserved < q.lastIdx)
    (h3 : q.lastIdx < s.log.start + s.params.reserved) :
    ∃ s', (Input.snapDone q true).run s = (.error .thrown, s') ∧ ∀ xs fx s'', Alive s' xs fx s'' →
      (∀ q ok, Input.snapDone q ok ∉ xs) → created fx = [] := by
  refine ⟨s.snapped q, ?_, fun xs fx s'' ha hx => ?_⟩
  · rw [run_snapDone_some h2]
    rcases logCompact_cases (q.lastIdx - s.params.reserved) (s.snapped q) with ⟨_, h⟩ | ⟨h, _⟩ | ⟨h, _⟩
    · rw [run_bind_err h]
    · have : s.log.start ≤ q.lastIdx - s.params.reserved := h
      omega
    · have : s.log.start ≤ q.lastIdx - s.params.reserved := h
      omega
  · exact ((one_snapshot_at_a_time ha hx).2.1 h1).1

/-- C57, positive: otherwise the report of the state machine makes room for the next snapshot. -/
theorem snapshots_go_on_partial {s : Srv} {q : Snap} {ok : Bool}
    (h : ok = true → s.params.reserved < q.lastIdx → s.log.start + s.params.reserved ≤ q.lastIdx) :
    ∃ s', (Input.snapDone q ok).run s = (.ok ⟨⟩, s') ∧ s'.snpInProgress = false := by
  cases ok with
  | false => exact ⟨{ s with snpInProgress := false }, rfl, rfl⟩
  | true =>
    by_cases hr : s.params.reserved < q.lastIdx
    · rw [run_snapDone_some hr]
      have := h rfl hr
      rcases logCompact_cases (q.lastIdx - s.params.reserved) (s.snapped q) with ⟨h1, h2⟩ | ⟨h1, _, h2⟩ | ⟨h1, _, h2⟩
      · have : q.lastIdx - s.params.reserved < s.log.start := h1
        omega
      · rw [run_bind_ok h2]; exact ⟨_, rfl, rfl⟩
      · rw [run_bind_ok h2]; exact ⟨_, rfl, rfl⟩
    · rw [run_snapDone_none hr]; exact ⟨_, rfl, rfl⟩

/-- A setup with frequent snapshots. -/
def snapNode : Setup := { id := 1, params := { snpDistance := 1, reserved := 5 } }

/-- C57, a history: server 1 gets a snapshot up to index 10 and the entries 11 to 14 from the leader. It makes a snapshot at
index 12; the report of the state machine ends by an exception, and there is no snapshot at index 14, and none later. -/
theorem snapshots_stop_history : ∃ n fx s, Hist snapNode (Node.fresh conf3)
      [.req snapReq10, .req (appendReqOf 2 5 5 10 [⟨5, .app 1⟩, ⟨5, .app 2⟩] 12), .apply, .apply,
       .snapDone ⟨12, 5, ⟨1, 0, conf3.servers⟩, 0⟩ true,
       .req (appendReqOf 2 5 5 12 [⟨5, .app 3⟩, ⟨5, .app 4⟩] 14), .apply, .apply] fx n ∧
    n.up = some s ∧ s.smCommit = 14 ∧ created fx = [⟨12, 5, ⟨1, 0, conf3.servers⟩, 0⟩] ∧
    ∀ xs fx' s', Alive s xs fx' s' → (∀ q ok, Input.snapDone q ok ∉ xs) → created fx' = [] := by
  obtain ⟨n, fx, h, hp⟩ := Node.witness (c := snapNode) (n := Node.fresh conf3)
    [.start, .go (.req snapReq10), .go (.req (appendReqOf 2 5 5 10 [⟨5, .app 1⟩, ⟨5, .app 2⟩] 12)), .go .apply, .go .apply,
     .go (.snapDone ⟨12, 5, ⟨1, 0, conf3.servers⟩, 0⟩ true),
     .go (.req (appendReqOf 2 5 5 12 [⟨5, .app 3⟩, ⟨5, .app 4⟩] 14)), .go .apply, .go .apply]
    (fun n fx => (match n.up with
      | some s => decide (s.smCommit = 14) && s.snpInProgress
      | none => false) && decide (created fx = [⟨12, 5, ⟨1, 0, conf3.servers⟩, 0⟩])) (by decide +kernel)
  obtain ⟨d, up⟩ := n
  cases up with
  | none => simp at hp
  | some s =>
    simp only [Bool.and_eq_true, decide_eq_true_eq] at hp
    exact ⟨⟨d, some s⟩, fx, s, h, rfl, hp.1.1, hp.2, fun xs fx' s' ha hx => ((one_snapshot_at_a_time ha hx).2.1 hp.1.2).1⟩

/-- C63: the hypotheses can be met, and a snapshot is asked for. -/
example : ∃ s s' : Srv, ∃ fx, Alive s [.apply] fx s' ∧ (created fx).length = 1 :=
  ⟨{ id := 1, config := conf3, params := { snpDistance := 1 }, quickCommit := 2, smCommit := 1,
     log := ⟨1, [⟨1, .app 1⟩, ⟨1, .app 2⟩]⟩ }, _, _, .step (.nil _) rfl (.inl (by decide +kernel)), by decide +kernel⟩

end Cs.Raft
