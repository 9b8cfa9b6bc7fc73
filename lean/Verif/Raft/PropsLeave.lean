import Verif.Raft.PropsJoin
import Verif.Raft.Steady

/-!
# Servers that leave, and servers that cannot be reached (C75, C76, C77)
-/

namespace Cs.Raft
open Cs

/-! ## Specification -/

/-- The request `q` to the server `r` stands for has failed, `n` times in a row, and nothing else has happened. In between it was
sent again. -/
def failed (r : PeerRef) (q : Req) : Nat → Srv → Srv
  | 0, s => s
  | n + 1, s => failed r q n ((Input.extErr r q).run { s with trace := [] }).2

/-- The entry that removes server `i`. -/
def removalOf (s : Srv) (i : Int) : Entry :=
  ⟨s.term, .conf ⟨s.log.next, s.config.logIdx, s.config.servers.filter fun c => c.id != i⟩⟩

/-! ## One failure -/

theorem findPeer_set {s : Srv} {i : Int} {f : Peer → Peer} (hf : ∀ p, (f p).id = p.id) :
    (s.setPeer (.member i) f).findPeer i = (s.findPeer i).map f := by
  show (s.peers.map fun p => if p.id == i then f p else p).find? (·.id == i) = _
  unfold Srv.findPeer
  induction s.peers with
  | nil => rfl
  | cons p ps ih =>
    rw [List.map_cons]
    by_cases h : (p.id == i) = true
    · rw [if_pos h, List.find?_cons_of_pos (by show ((f p).id == i) = true; rw [hf]; exact h), List.find?_cons_of_pos (p := fun x : Peer => x.id == i) h]
      rfl
    · rw [if_neg h, List.find?_cons_of_neg (p := fun x : Peer => x.id == i) h, List.find?_cons_of_neg (p := fun x : Peer => x.id == i) h, ih]

theorem rpcFail {s : Srv} {r : PeerRef} {q : Req} (h : q.type = .leaveReq ∨ q.type = .syncReq ∨ q.type = .joinReq) :
    rpcResult r q.type false s = (.ok ⟨⟩, s.setPeer r (slowDownHb s.params)) := by
  unfold rpcResult
  rw [bind_get, bind_modPeer]
  have e : (s.setPeer r fun p => if q.type = .appendReq ∨ q.type = .snpReq then { p with busy := false } else p) = s := by
    have : ¬(q.type = .appendReq ∨ q.type = .snpReq) := by rcases h with h | h | h <;> rw [h] <;> rintro (h | h) <;> cases h
    simp only [if_neg this]
    cases r with
    | member i =>
      show ({ s with peers := _ } : Srv) = s
      simp only [ite_self, List.map_id']
    | joining =>
      show ({ s with srvToJoin := s.srvToJoin.map fun p => p } : Srv) = s
      rw [Option.map_id']
  rw [e]
  rfl

theorem rmSrv_run (i : Int) (s : Srv) : (rmSrvFromCluster i s).2.log.ents = s.log.ents ++ [removalOf s i] := by
  unfold rmSrvFromCluster
  rw [bind_get, bind_modify]
  have e1 : logAppend (removalOf s i) { s with configChanging := true } =
    (.ok ⟨⟩, { s with configChanging := true, log := s.log.append (removalOf s i), trace := s.trace ++ [.append (removalOf s i)] }) := rfl
  show ((logAppend (removalOf s i) >>= fun _ => requestAppendAll) { s with configChanging := true }).2.log.ents = _
  rw [run_bind_ok e1, sameLog_requestAppendAll _]
  rfl

theorem leave_fail {s : Srv} {q : Req} {p : Peer} (hq : q.type = .leaveReq) (hp : s.findPeer q.dst = some p) :
    (s.params.maxHb ≤ p.hbInterval + s.params.rpcBackoff →
      ((Input.extErr (.member q.dst) q).run s).2.log.ents = s.log.ents ++ [removalOf s q.dst]) ∧
    (p.hbInterval + s.params.rpcBackoff < s.params.maxHb → ∃ ps p', (Input.extErr (.member q.dst) q).run s =
      (.ok ⟨⟩, { s with peers := ps }) ∧ ps.find? (·.id == q.dst) = some p' ∧
      p'.hbInterval = min s.params.maxHb (p.hbInterval + 2 * s.params.rpcBackoff)) := by
  have e1 : (Input.extErr (.member q.dst) q).run s = handleExtErr q (s.setPeer (.member q.dst) (slowDownHb s.params)) :=
    run_bind_ok (rpcFail (.inl hq))
  have hp1 := findPeer_set (s := s) (i := q.dst) (f := slowDownHb s.params) fun _ => rfl
  rw [hp] at hp1
  rw [e1]
  unfold handleExtErr
  rw [bind_get]
  simp only [hq, hp1, Option.map_some]
  have hm : (s.setPeer (.member q.dst) (slowDownHb s.params)).params = s.params := rfl
  rw [hm]
  have hi : (slowDownHb s.params p).hbInterval = min s.params.maxHb (p.hbInterval + s.params.rpcBackoff) := rfl
  rw [hi]
  constructor
  · intro h
    rw [if_pos (by omega)]
    unfold forceRemove
    rw [bind_modify]
    generalize (s.setPeer (.member q.dst) (slowDownHb s.params)).peers = ps
    rw [rmSrv_run]
    rfl
  · intro h
    rw [if_neg (by omega)]
    refine ⟨_, slowDownHb s.params (slowDownHb s.params p), rfl, ?_, ?_⟩
    · have := findPeer_set (s := s.setPeer (.member q.dst) (slowDownHb s.params)) (i := q.dst) (f := slowDownHb s.params) fun _ => rfl
      rw [hp1] at this
      exact this
    · show min _ ((slowDownHb s.params p).hbInterval + _) = _
      rw [hi]
      omega

theorem join_fail {s : Srv} {q : Req} {p : Peer} (hq : q.type = .syncReq ∨ q.type = .joinReq) (hp : s.srvToJoin = some p) :
    (s.params.maxHb ≤ p.hbInterval + s.params.rpcBackoff →
      (Input.extErr .joining q).run s = (.ok ⟨⟩, { s with configChanging := false, srvToJoin := none })) ∧
    (p.hbInterval + s.params.rpcBackoff < s.params.maxHb → ∃ p', (Input.extErr .joining q).run s =
      (.ok ⟨⟩, { s with srvToJoin := some p' }) ∧ p'.hbInterval = min s.params.maxHb (p.hbInterval + 2 * s.params.rpcBackoff)) := by
  have e1 : (Input.extErr .joining q).run s = handleExtErr q (s.setPeer .joining (slowDownHb s.params)) :=
    run_bind_ok (rpcFail (.inr hq))
  have e2 : s.setPeer .joining (slowDownHb s.params) = { s with srvToJoin := some (slowDownHb s.params p) } := by
    unfold Srv.setPeer; rw [hp]; rfl
  rw [e1, e2]
  have hi : (slowDownHb s.params p).hbInterval = min s.params.maxHb (p.hbInterval + s.params.rpcBackoff) := rfl
  have e3 : handleExtErr q { s with srvToJoin := some (slowDownHb s.params p) } =
      (if s.params.maxHb ≤ (slowDownHb s.params p).hbInterval then
        modify fun s => { s with configChanging := false, srvToJoin := none }
      else modPeer .joining (slowDownHb s.params) : R Unit) { s with srvToJoin := some (slowDownHb s.params p) } := by
    unfold handleExtErr
    rw [bind_get]
    rcases hq with h | h <;> rw [h]
  rw [e3, hi]
  constructor
  · intro h
    rw [if_pos (by omega)]
    rfl
  · intro h
    rw [if_neg (by omega)]
    refine ⟨slowDownHb s.params (slowDownHb s.params p), rfl, ?_⟩
    show min _ ((slowDownHb s.params p).hbInterval + _) = _
    rw [hi]
    omega

/-! ## All failures -/

theorem leave_fails {q : Req} (hq : q.type = .leaveReq) : ∀ (m : Nat) (s : Srv) (p : Peer), s.findPeer q.dst = some p →
    0 < s.params.rpcBackoff → (s.params.maxHb - p.hbInterval).toNat ≤ m →
    ∃ n : Nat, (n = 0 ∨ 2 * n * s.params.rpcBackoff < s.params.maxHb - p.hbInterval + s.params.rpcBackoff) ∧
      (∀ k ≤ n, (failed (.member q.dst) q k s).log = s.log) ∧
      (failed (.member q.dst) q (n + 1) s).log.ents = s.log.ents ++ [removalOf s q.dst] := by
  intro m
  induction m with
  | zero =>
    intro s p hp hb hm
    refine ⟨0, .inl rfl, fun k hk => by rw [Nat.le_zero.1 hk]; rfl, ?_⟩
    exact (leave_fail (s := { s with trace := [] }) hq hp).1 (show s.params.maxHb ≤ p.hbInterval + s.params.rpcBackoff by omega)
  | succ m ih =>
    intro s p hp hb hm
    by_cases h : s.params.maxHb ≤ p.hbInterval + s.params.rpcBackoff
    · refine ⟨0, .inl rfl, fun k hk => by rw [Nat.le_zero.1 hk]; rfl, ?_⟩
      exact (leave_fail (s := { s with trace := [] }) hq hp).1 h
    · obtain ⟨ps, p', e1, e2, e3⟩ := (leave_fail (s := { s with trace := [] }) hq hp).2
        (show p.hbInterval + s.params.rpcBackoff < s.params.maxHb by omega)
      replace e3 : p'.hbInterval = min s.params.maxHb (p.hbInterval + 2 * s.params.rpcBackoff) := e3
      obtain ⟨n, h1, h2, h3⟩ := ih { s with trace := [], peers := ps } p' e2 hb
        (show (s.params.maxHb - p'.hbInterval).toNat ≤ m by omega)
      replace h1 : n = 0 ∨ 2 * n * s.params.rpcBackoff < s.params.maxHb - p'.hbInterval + s.params.rpcBackoff := h1
      refine ⟨n + 1, .inr ?_, ?_, ?_⟩
      · rw [show ((n + 1 : Nat) : Int) = (n : Int) + 1 from rfl, Int.mul_add, Int.add_mul]
        rcases h1 with rfl | h1
        · omega
        · rcases Nat.eq_zero_or_pos n with rfl | hn
          · omega
          · have := Int.mul_le_mul_of_nonneg_right (show 2 ≤ 2 * (n : Int) by omega) (Int.le_of_lt hb)
            generalize 2 * (n : Int) * s.params.rpcBackoff = x at *
            omega
      · intro k hk
        cases k with
        | zero => rfl
        | succ k =>
          show (failed _ q k ((Input.extErr (.member q.dst) q).run { s with trace := [] }).2).log = _
          rw [e1]
          exact h2 k (by omega)
      · show (failed _ q (n + 1) ((Input.extErr (.member q.dst) q).run { s with trace := [] }).2).log.ents = _
        rw [e1]
        exact h3

theorem join_fails {q : Req} (hq : q.type = .syncReq ∨ q.type = .joinReq) : ∀ (m : Nat) (s : Srv) (p : Peer), s.srvToJoin = some p →
    0 < s.params.rpcBackoff → (s.params.maxHb - p.hbInterval).toNat ≤ m →
    ∃ n : Nat, (n = 0 ∨ 2 * n * s.params.rpcBackoff < s.params.maxHb - p.hbInterval + s.params.rpcBackoff) ∧
      failed .joining q (n + 1) s = { s with trace := [], configChanging := false, srvToJoin := none } := by
  intro m
  induction m with
  | zero =>
    intro s p hp hb hm
    refine ⟨0, .inl rfl, ?_⟩
    show ((Input.extErr .joining q).run { s with trace := [] }).2 = _
    rw [(join_fail (s := { s with trace := [] }) hq hp).1 (show s.params.maxHb ≤ p.hbInterval + s.params.rpcBackoff by omega)]
  | succ m ih =>
    intro s p hp hb hm
    by_cases h : s.params.maxHb ≤ p.hbInterval + s.params.rpcBackoff
    · refine ⟨0, .inl rfl, ?_⟩
      show ((Input.extErr .joining q).run { s with trace := [] }).2 = _
      rw [(join_fail (s := { s with trace := [] }) hq hp).1 h]
    · obtain ⟨p', e1, e3⟩ := (join_fail (s := { s with trace := [] }) hq hp).2
        (show p.hbInterval + s.params.rpcBackoff < s.params.maxHb by omega)
      replace e3 : p'.hbInterval = min s.params.maxHb (p.hbInterval + 2 * s.params.rpcBackoff) := e3
      obtain ⟨n, h1, h3⟩ := ih { s with trace := [], srvToJoin := some p' } p' rfl hb
        (show (s.params.maxHb - p'.hbInterval).toNat ≤ m by omega)
      replace h1 : n = 0 ∨ 2 * n * s.params.rpcBackoff < s.params.maxHb - p'.hbInterval + s.params.rpcBackoff := h1
      refine ⟨n + 1, .inr ?_, ?_⟩
      · rw [show ((n + 1 : Nat) : Int) = (n : Int) + 1 from rfl, Int.mul_add, Int.add_mul]
        rcases Nat.eq_zero_or_pos n with rfl | hn
        · omega
        · have := Int.mul_le_mul_of_nonneg_right (show 2 ≤ 2 * (n : Int) by omega) (Int.le_of_lt hb)
          generalize 2 * (n : Int) * s.params.rpcBackoff = x at *
          omega
      · show failed _ q (n + 1) ((Input.extErr .joining q).run { s with trace := [] }).2 = _
        rw [e1]
        exact h3

/-! ## C75 -/

/-- C75, partial: a leader accepts the request to remove server `i`, which cannot be reached. After a bounded number of failures, and not
before, the leader appends the configuration without server `i`. Missing: a back-off of zero or less (`unreachable_stays`). -/
theorem unreachable_removed_partial {s : Srv} {r : Req} {t : Nat} {i : Int} {p : Peer} (hr : r.type = .rmReq)
    (he : r.entries = [⟨t, .rmId i⟩]) (hl : s.role = .leader) (hc : s.configChanging = false) (hi : i ≠ s.id)
    (hp : s.findPeer i = some p) (hb : 0 < s.params.rpcBackoff) :
    ∃ s' q, (Input.req r).run { s with trace := [] } = (.ok ⟨⟩, s') ∧ sends s'.trace = [q] ∧ q.dst = i ∧
      ∃ n : Nat, (n = 0 ∨ 2 * n * s.params.rpcBackoff < s.params.maxHb - p.hbInterval + s.params.rpcBackoff) ∧
        (∀ k ≤ n, (failed (.member i) q k s').log = s.log) ∧
        (failed (.member i) q (n + 1) s').log.ents = s.log.ents ++ [removalOf s i] := by
  have e1 : processReq r { s with trace := [] } = handleRmSrv r { s with trace := [] } := by
    unfold processReq hearTerm dispatch handleExtended
    rw [hr]
    rfl
  have e2 : ∃ q a, q.type = .leaveReq ∧ q.dst = i ∧ processReq r { s with trace := [] } = (.ok a, { s with trace := [.send q] }) := by
    rw [e1]
    unfold handleRmSrv
    rw [bind_get, he]
    show ∃ q a, _ ∧ _ ∧ (if s.role ≠ .leader ∨ s.configChanging = true ∨ i = s.id ∨ (s.findPeer i).isNone = true then _ else _ : R Resp) _ = _
    rw [if_neg (by
      rintro (h1 | h1 | h1 | h1)
      · exact h1 hl
      · rw [hc] at h1; cases h1
      · exact hi h1
      · rw [hp] at h1; cases h1)]
    exact ⟨_, _, rfl, rfl, rfl⟩
  obtain ⟨q, a, h1, h2, h3⟩ := e2
  subst h2
  refine ⟨_, q, reply_run h3, rfl, rfl, ?_⟩
  exact leave_fails h1 _ { s with trace := [.send q] ++ [.reply a] } p hp hb (Nat.le_refl _)

/-- C75, a server that is to join: a leader accepts the request to add a server that cannot be reached. After a bounded number of
failures the leader gives up, and accepts further requests. -/
theorem unreachable_given_up_partial {s : Srv} {r : Req} {t : Nat} {c : SrvCfg} (hr : r.type = .addReq)
    (he : r.entries = [⟨t, .srv c⟩]) (hl : s.role = .leader) (hc : s.configChanging = false) (hi : c.id ≠ s.id)
    (hp : s.findPeer c.id = none) (hb : 0 < s.params.rpcBackoff) :
    ∃ s' q, (Input.req r).run { s with trace := [] } = (.ok ⟨⟩, s') ∧ sends s'.trace = [q] ∧ q.dst = c.id ∧
      ∃ n : Nat, (n = 0 ∨ 2 * n * s.params.rpcBackoff < s.params.maxHb - s.params.hbInterval + s.params.rpcBackoff) ∧
        (failed .joining q (n + 1) s').log = s.log ∧ (failed .joining q (n + 1) s').srvToJoin = none ∧
        ∃ a s'', processReq r (failed .joining q (n + 1) s') = (.ok a, s'') ∧ a.accepted = true := by
  have e1 : ∀ s, processReq r s = handleAddSrv r s := by
    intro s
    unfold processReq hearTerm dispatch handleExtended
    rw [hr]
    rfl
  have e2 : ∀ s : Srv, s.role = .leader → s.configChanging = false → c.id ≠ s.id → s.findPeer c.id = none →
      ∃ q a, q.type = .joinReq ∧ q.dst = c.id ∧ a.accepted = true ∧ processReq r s =
        (.ok a, serving s c { cfg := c, hbInterval := s.params.hbInterval } (s.trace ++ [.send q])) := by
    intro s hl hc hi hp
    rw [e1]
    unfold handleAddSrv
    rw [bind_get, he]
    show ∃ q a, _ ∧ _ ∧ _ ∧
      (if s.role ≠ .leader ∨ (s.findPeer c.id).isSome = true ∨ s.id = c.id ∨ s.configChanging = true then _ else _ : R Resp) _ = _
    rw [if_neg (by
      rintro (h1 | h1 | h1 | h1)
      · exact h1 hl
      · rw [hp] at h1; cases h1
      · exact hi h1.symm
      · rw [hc] at h1; cases h1)]
    exact ⟨_, _, rfl, rfl, rfl, rfl⟩
  obtain ⟨q, a, h1, h2, _, h3⟩ := e2 { s with trace := [] } hl hc hi hp
  refine ⟨_, q, reply_run h3, rfl, h2, ?_⟩
  obtain ⟨n, f1, f2⟩ := join_fails (q := q) (.inr h1) _
    { serving { s with trace := [] } c { cfg := c, hbInterval := s.params.hbInterval } ([] ++ [.send q]) with trace := [] ++ [.send q] ++ [.reply a] }
    { cfg := c, hbInterval := s.params.hbInterval } rfl hb (Nat.le_refl _)
  refine ⟨n, f1, ?_⟩
  erw [f2]
  obtain ⟨q', a', _, _, g1, g2⟩ := e2 { s with confToAdd := some c, trace := [], configChanging := false, srvToJoin := none } hl rfl hi hp
  exact ⟨rfl, rfl, a', _, g2, g1⟩

/-- C75 fails for a back-off that is not positive: the leader goes on for ever and the server stays a member. -/
theorem unreachable_stays {q : Req} (hq : q.type = .leaveReq) (n : Nat) : ∀ {s : Srv} {p : Peer}, s.findPeer q.dst = some p →
    s.params.rpcBackoff ≤ 0 → p.hbInterval < s.params.maxHb → (failed (.member q.dst) q n s).log = s.log := by
  induction n with
  | zero => intros; rfl
  | succ n ih =>
    intro s p hp hb hh
    obtain ⟨ps, p', e1, e2, e3⟩ := (leave_fail (s := { s with trace := [] }) hq hp).2
      (show p.hbInterval + s.params.rpcBackoff < s.params.maxHb by omega)
    replace e3 : p'.hbInterval = min s.params.maxHb (p.hbInterval + 2 * s.params.rpcBackoff) := e3
    show (failed _ q n ((Input.extErr (.member q.dst) q).run { s with trace := [] }).2).log = _
    rw [e1]
    exact ih (s := { s with trace := [], peers := ps }) (p := p') e2 hb (show p'.hbInterval < s.params.maxHb by omega)

/-- Both cases with the default parameters, for the servers 3 and 4. -/
example : ∃ d s fx p, Hist node1 (Node.fresh conf3) (electScript.flatMap Move.input) fx ⟨d, some s⟩ ∧ s.role = .leader ∧
    s.configChanging = false ∧ s.id = 1 ∧ s.findPeer 3 = some p ∧ s.findPeer 4 = none ∧ s.params.rpcBackoff = 25 ∧
    s.params.maxHb - p.hbInterval = 38 := by
  obtain ⟨⟨d, up⟩, fx, h, hp⟩ := Node.witness (c := node1) (n := Node.fresh conf3) electScript
    (fun n _ => match n.up with
      | some s => decide (s.role = .leader) && !s.configChanging && decide (s.id = 1) && (s.findPeer 4).isNone &&
        decide (s.params.rpcBackoff = 25) &&
        (match s.findPeer 3 with | some p => decide (s.params.maxHb - p.hbInterval = 38) | none => false)
      | none => false) (by decide +kernel)
  rcases up with _ | s
  · cases hp
  simp only [Bool.and_eq_true, decide_eq_true_eq, Bool.not_eq_true', Option.isNone_iff_eq_none] at hp
  obtain ⟨⟨⟨⟨⟨h1, h2⟩, h3⟩, h4⟩, h5⟩, h6⟩ := hp
  rcases hp : s.findPeer 3 with _ | p
  · rw [hp] at h6; cases h6
  · rw [hp] at h6
    exact ⟨d, s, fx, p, h, h1, h2, h3, hp, h4, h5, of_decide_eq_true h6⟩

/-! ## C76 -/

theorem runs_steady {s s' : Srv} {xs : List Input} {fx : List Eff} (h : Runs s xs fx s') (hx : ∀ x ∈ xs, x.steady = true) :
    Steady s s' := by
  induction h with
  | nil => exact stPo.1 _
  | @step s1 s2 xs fx x res h1 h2 h3 ih =>
    have a := ih fun y hy => hx y (List.mem_append_left _ hy)
    have b := st_run (hx x (List.mem_append_right _ (List.mem_singleton.2 rfl))) { s1 with trace := [] }
    rw [h2] at b
    exact ⟨b.id.trans a.id, b.params.trans a.params, b.env.trans a.env, b.down.trans a.down⟩

theorem leave_accepted {r : Req} {s s1 : Srv} {a : Resp} (hr : r.type = .leaveReq)
    (h : (Input.req r).run { s with trace := [] } = (.ok ⟨⟩, s1)) (ha : answers s1.trace = [a]) (hok : a.accepted = true) :
    s1.stepsToDown = 2 := by
  have e1 : processReq r { s with trace := [] } = handleLeave r { s with trace := [] } := by
    unfold processReq hearTerm dispatch handleExtended
    rw [hr]
    rfl
  by_cases hc : s.configChanging = true
  · have e2 : handleLeave r { s with trace := [] } =
        (.ok { type := .leaveResp, term := s.term, src := s.id, dst := r.src }, { s with trace := [] }) := by
      unfold handleLeave
      rw [bind_get, if_pos hc]
      rfl
    rw [reply_run (e1.trans e2)] at h
    cases h
    cases ha
    cases hok
  · have e2 : handleLeave r { s with trace := [] } =
        (.ok { type := .leaveResp, term := s.term, src := s.id, dst := r.src, nextIdx := s.log.next, accepted := true }, { s with trace := [], stepsToDown := 2 }) := by
      unfold handleLeave
      rw [bind_get, if_neg hc]
      rfl
    rw [reply_run (e1.trans e2)] at h
    cases h
    rfl

/-- C76. A server has agreed to leave. As long as no append, vote or snapshot request and no further request to leave reaches it, whatever
else happens, its next election timeout only sets the timer again (unless the server is catching up), and the one after that ends the process, after the server has
taken itself out of its configuration on disk. -/
theorem leaver_ends {r : Req} {s s1 s2 : Srv} {a : Resp} {xs : List Input} {fx : List Eff} (hr : r.type = .leaveReq)
    (h : (Input.req r).run { s with trace := [] } = (.ok ⟨⟩, s1)) (ha : answers s1.trace = [a]) (hok : a.accepted = true)
    (h1 : Runs s1 xs fx s2) (hx : ∀ x ∈ xs, x.steady = true) :
    ∃ s3, Input.electionTimeout.run { s2 with trace := [] } = (.ok ⟨⟩, s3) ∧ s3.armed = !s2.catchingUp ∧ s3.trace = [] ∧
      ∀ ys fy s4, Runs s3 ys fy s4 → (∀ y ∈ ys, y.steady = true) →
        ∃ s5, Input.electionTimeout.run { s4 with trace := [] } = (.error (.exit (-1)), s5) ∧
          s5.trace = (if s4.config.has s4.id then
            [.saveConfig { s4.config with servers := s4.config.servers.eraseP (·.id == s4.id) }] else []) ++ [.exit (-1)] := by
  have d1 := (runs_steady h1 hx).down.trans (leave_accepted hr h ha hok)
  have e1 : Input.electionTimeout.run { s2 with trace := [] } = restartElectionTimer { s2 with trace := [], armed := false, stepsToDown := 1 } := by
    show handleElectionTimeout _ = _
    unfold handleElectionTimeout
    rw [bind_modify, bind_get]
    simp only [d1]
    rfl
  refine ⟨_, e1.trans (run_restart _), rfl, rfl, fun ys fy s4 h2 hy => ?_⟩
  have d2 : s4.stepsToDown = 1 := (runs_steady h2 hy).down
  have e2 : Input.electionTimeout.run { s4 with trace := [] } =
      (leaveConfig >>= fun _ => die (-1)) { s4 with trace := [], armed := false, stepsToDown := 0 } := by
    show handleElectionTimeout _ = _
    unfold handleElectionTimeout
    rw [bind_modify, bind_get]
    simp only [d2]
    rfl
  have e3 : ∃ s5, leaveConfig { s4 with trace := [], armed := false, stepsToDown := 0 } = (.ok ⟨⟩, s5) ∧
      s5.trace = (if s4.config.has s4.id then
        [.saveConfig { s4.config with servers := s4.config.servers.eraseP (·.id == s4.id) }] else []) := by
    unfold leaveConfig
    rw [bind_get]
    by_cases hh : s4.config.has s4.id = true
    · rw [if_pos hh, if_pos hh]
      exact ⟨_, rfl, rfl⟩
    · rw [if_neg hh, if_neg hh]
      exact ⟨_, rfl, rfl⟩
  obtain ⟨s5, e4, e5⟩ := e3
  rw [e2, run_bind_ok e4]
  exact ⟨_, rfl, by rw [← e5]⟩

/-! ## C77 -/

/-- Effects that do not write a configuration. -/
def Eff.keepsConf : Eff → Bool
  | .saveConfig _ => false
  | _ => true

/-- No configuration is written. -/
def Unsaved (s s' : Srv) : Prop := ∃ es, s'.trace = s.trace ++ es ∧ ∀ e ∈ es, e.keepsConf = true

theorem unPo : PO Unsaved where
  refl s := ⟨[], (List.append_nil _).symm, fun _ h => (by cases h)⟩
  trans := by
    rintro a b c ⟨e1, h1, g1⟩ ⟨e2, h2, g2⟩
    exact ⟨e1 ++ e2, by rw [h2, h1, List.append_assoc], fun e he => (List.mem_append.1 he).elim (g1 e) (g2 e)⟩

theorem un_mod {f : Srv → Srv} (h : ∀ s, (f s).trace = s.trace) : Pres Unsaved (modify f : R PUnit) := fun s =>
  ⟨[], by rw [List.append_nil]; exact h s, fun _ h => (by cases h)⟩
theorem un_emit (e : Eff) (h : e.keepsConf = true) : Pres Unsaved (emit e) := fun _ =>
  ⟨[e], rfl, fun x hx => by rw [List.mem_singleton.1 hx]; exact h⟩
theorem un_modPeer (r : PeerRef) (f : Peer → Peer) : Pres Unsaved (modPeer r f) :=
  un_mod fun s => by cases r <;> rfl

/-- The primitive updates. -/
macro "un" : tactic => `(tactic| first | rfl | exact un_mod fun _ => rfl | exact un_mod fun _ => (by split <;> rfl) | exact un_emit _ rfl)

theorem un_die {α : Type} (c : Int) : Pres Unsaved (die c : R α) := by
  unfold die
  pres unPo using un_emit
  all_goals un
theorem un_saveState  : Pres Unsaved (saveState) := by
  unfold saveState
  pres unPo using un_emit
  all_goals un
theorem un_getPeer (r : PeerRef) : Pres Unsaved (getPeer r) := by
  unfold getPeer
  pres unPo using un_emit
  all_goals un
theorem un_peerIds  : Pres Unsaved (peerIds) := by
  unfold peerIds
  pres unPo using un_emit
  all_goals un
theorem un_logAppend (e : Entry) : Pres Unsaved (logAppend e) := by
  unfold logAppend
  pres unPo using un_emit
  all_goals un
theorem un_termAt (i : Nat) : Pres Unsaved (termAt i) := by
  unfold termAt
  pres unPo using un_emit
  all_goals un
theorem un_termForLog (i : Nat) : Pres Unsaved (termForLog i) := by
  unfold termForLog
  pres unPo using un_die, un_termAt
  all_goals un
theorem un_restartElectionTimer  : Pres Unsaved (restartElectionTimer) := by
  unfold restartElectionTimer
  pres unPo using un_emit
  all_goals un
theorem un_stopElectionTimer  : Pres Unsaved (stopElectionTimer) := by
  unfold stopElectionTimer
  pres unPo using un_emit
  all_goals un
theorem un_enableHb (r : PeerRef) : Pres Unsaved (enableHb r) := by
  unfold enableHb
  pres unPo using un_modPeer
  all_goals un
theorem un_chooseSnap (r : PeerRef) (lastIdx : Nat) : Pres Unsaved (chooseSnap r lastIdx) := by
  unfold chooseSnap
  pres unPo using un_die, un_modPeer, un_getPeer
  all_goals un
theorem un_createSyncSnapshotReq (r : PeerRef) (lastIdx term commitIdx : Nat) : Pres Unsaved (createSyncSnapshotReq r lastIdx term commitIdx) := by
  unfold createSyncSnapshotReq
  pres unPo using un_die, un_getPeer, un_chooseSnap
  all_goals un
theorem un_entriesFrom (last : Nat) : Pres Unsaved (entriesFrom last) := by
  unfold entriesFrom
  pres unPo using un_emit
  all_goals un
theorem un_appendReqFrom (r : PeerRef) (last : Nat) : Pres Unsaved (appendReqFrom r last) := by
  unfold appendReqFrom
  pres unPo using un_getPeer, un_termForLog, un_entriesFrom
  all_goals un
theorem un_createAppendReq (r : PeerRef) : Pres Unsaved (createAppendReq r) := by
  unfold createAppendReq
  pres unPo using un_die, un_modPeer, un_getPeer, un_createSyncSnapshotReq, un_appendReqFrom
  all_goals un
theorem un_requestAppend (r : PeerRef) : Pres Unsaved (requestAppend r) := by
  unfold requestAppend
  pres unPo using un_emit, un_modPeer, un_getPeer, un_createAppendReq
  all_goals un
theorem un_commitNotify (id : Int) : Pres Unsaved (commitNotify id) := by
  unfold commitNotify
  pres unPo using un_modPeer, un_requestAppend
  all_goals un
theorem un_commit (target : Nat) : Pres Unsaved (commit target) := by
  unfold commit
  pres unPo using un_emit, un_peerIds, un_commitNotify
  all_goals un
theorem un_requestAppendTo (id : Int) : Pres Unsaved (requestAppendTo id) := by
  unfold requestAppendTo
  pres unPo using un_requestAppend
  all_goals un
theorem un_requestAppendAll  : Pres Unsaved (requestAppendAll) := by
  unfold requestAppendAll
  pres unPo using un_peerIds, un_commit, un_requestAppendTo
  all_goals un
theorem un_leaderPeer (id : Int) : Pres Unsaved (leaderPeer id) := by
  unfold leaderPeer
  pres unPo using un_modPeer, un_enableHb
  all_goals un
theorem un_initialConf  : Pres Unsaved (initialConf) := by
  unfold initialConf
  pres unPo using un_logAppend
  all_goals un
theorem un_becomeLeader  : Pres Unsaved (becomeLeader) := by
  unfold becomeLeader
  pres unPo using un_emit, un_peerIds, un_stopElectionTimer, un_requestAppendAll, un_leaderPeer, un_initialConf
  all_goals un
theorem un_askVote (ty : MsgType) (id : Int) : Pres Unsaved (askVote ty id) := by
  unfold askVote
  pres unPo using un_emit, un_termForLog
  all_goals un
theorem un_voteSelf  : Pres Unsaved (voteSelf) := by
  unfold voteSelf
  pres unPo using un_saveState
  all_goals un
theorem un_askForVotes  : Pres Unsaved (askForVotes) := by
  unfold askForVotes
  pres unPo using un_peerIds, un_becomeLeader, un_askVote
  all_goals un
theorem un_requestVote  : Pres Unsaved (requestVote) := by
  unfold requestVote
  pres unPo using un_voteSelf, un_askForVotes
  all_goals un
theorem un_startTerm  : Pres Unsaved (startTerm) := by
  unfold startTerm
  pres unPo using un_saveState
  all_goals un
theorem un_rearm  : Pres Unsaved (rearm) := by
  unfold rearm
  pres unPo using un_restartElectionTimer
  all_goals un
theorem un_becomeCandidate  : Pres Unsaved (becomeCandidate) := by
  unfold becomeCandidate
  pres unPo using un_requestVote, un_startTerm, un_rearm
  all_goals un
theorem un_requestPrevote  : Pres Unsaved (requestPrevote) := by
  unfold requestPrevote
  pres unPo using un_peerIds, un_askVote, un_becomeCandidate
  all_goals un

/-- Requests to leave. -/
def Input.asksLeave : Input → Bool
  | .req r => r.type == .leaveReq
  | _ => false

theorem st_electionTimeout {s : Srv} (h : s.stepsToDown = 0) : Steady s (handleElectionTimeout s).2 := by
  unfold handleElectionTimeout
  rw [bind_modify, bind_get]
  have h0 : ¬0 < ({ s with armed := false } : Srv).stepsToDown := by rw [show ({ s with armed := false } : Srv).stepsToDown = 0 from h]; omega
  rw [if_neg h0]
  have key : Pres Steady (if ({ s with armed := false } : Srv).catchingUp = true then restartElectionTimer
    else if ({ s with armed := false } : Srv).role = .leader then die (-1)
    else if ({ s with armed := false } : Srv).params.prevote = true ∧ ({ s with armed := false } : Srv).role = .follower then
      if (match ({ s with armed := false } : Srv).prevote with | some (v, _) => !v.isEmpty | none => false) = true then pure ()
      else requestPrevote
    else becomeCandidate) := by
    pres stPo using st_restartElectionTimer, st_die, st_requestPrevote, st_becomeCandidate
  exact stPo.2 (b := { s with armed := false }) ⟨rfl, rfl, rfl, rfl⟩ (key _)

theorem heard_down {s : Srv} (h : s.stepsToDown = 0) (r : Req) : (s.heard r).stepsToDown = 0 := by
  unfold Srv.heard
  split
  · split
    · show (if 0 < s.stepsToDown then 2 else s.stepsToDown) = 0
      rw [h]; rfl
    · show (if 0 < s.stepsToDown then 2 else s.stepsToDown) = 0
      rw [h]; rfl
  · exact h

theorem stay_run {x : Input} (hx : x.asksLeave = false) {s : Srv} (h : s.stepsToDown = 0) : (x.run s).2.stepsToDown = 0 := by
  by_cases h1 : x.steady = true
  · rw [(st_run h1 s).down]; exact h
  · cases x with
    | req r =>
      have hr : r.type ≠ .leaveReq := by
        intro e
        have : (r.type == .leaveReq) = false := hx
        rw [e] at this; cases this
      show ((processReq r >>= fun a => emit (.reply a)) s).2.stepsToDown = 0
      have e1 : (processReq r >>= fun a => emit (.reply a)) s = (dispatch r >>= fun a => emit (.reply a)) (s.heard r) := by
        rw [run_bind, run_bind, run_processReq]
      rw [e1, (pres_bind stPo (st_dispatch r hr) (fun a => st_emit _) (s.heard r)).down]
      exact heard_down h r
    | electionTimeout =>
      rw [show Input.electionTimeout.run = handleElectionTimeout from rfl, (st_electionTimeout h).down]; exact h
    | _ => exact absurd rfl h1

theorem hist_stay {c : Setup} {n n' : Node} {xs : List Input} {fx : List Eff} (h : Hist c n xs fx n') (h0 : n.up = none)
    (hx : ∀ x ∈ xs, x.asksLeave = false) : ∀ s, n'.up = some s → s.stepsToDown = 0 := by
  induction h with
  | nil => intro s hs; rw [h0] at hs; cases hs
  | step h1 h2 ih =>
    have ih := ih fun y hy => hx y (List.mem_append_left _ hy)
    intro s hs
    cases h2 with
    | @run _ s0 _ x hr =>
      cases hs
      have := stay_run (hx _ (List.mem_append_right _ (List.mem_singleton.2 rfl))) (s := { s0 with trace := [] }) (ih s0 rfl)
      rw [hr] at this; exact this
    | @survive _ s0 _ x hr =>
      cases hs
      have := stay_run (hx _ (List.mem_append_right _ (List.mem_singleton.2 rfl))) (s := { s0 with trace := [] }) (ih s0 rfl)
      rw [hr] at this; exact this
    | crash _ => cases hs
    | boot => cases hs; rfl

/-- C77, partial: unless somebody has asked it to leave, a server does not take itself out of its configuration: no election timeout
writes a configuration. Missing: requests to leave that do not lead to the removal of the server (`member_leaves`). -/
theorem stays_member_partial {c : Setup} {cfg : Config} {xs : List Input} {fx : List Eff} {d : Disk} {s : Srv}
    (h : Hist c (Node.fresh cfg) xs fx ⟨d, some s⟩) (hx : ∀ x ∈ xs, x.asksLeave = false) (cf : Config) :
    Eff.saveConfig cf ∉ (Input.electionTimeout.run { s with trace := [] }).2.trace := by
  have h0 : ({ s with trace := [] } : Srv).stepsToDown = 0 := hist_stay h rfl hx s rfl
  generalize hs : ({ s with trace := [] } : Srv) = s0 at *
  have key : Unsaved s0 (handleElectionTimeout s0).2 := by
    unfold handleElectionTimeout
    rw [bind_modify, bind_get, if_neg (by show ¬0 < s0.stepsToDown; omega)]
    have key : Pres Unsaved (if ({ s0 with armed := false } : Srv).catchingUp = true then restartElectionTimer
      else if ({ s0 with armed := false } : Srv).role = .leader then die (-1)
      else if ({ s0 with armed := false } : Srv).params.prevote = true ∧ ({ s0 with armed := false } : Srv).role = .follower then
        if (match ({ s0 with armed := false } : Srv).prevote with | some (v, _) => !v.isEmpty | none => false) = true then pure ()
        else requestPrevote
      else becomeCandidate) := by
      pres unPo using un_restartElectionTimer, un_die, un_requestPrevote, un_becomeCandidate
    exact unPo.2 (b := { s0 with armed := false }) ⟨[], (List.append_nil _).symm, fun _ h => (by cases h)⟩ (key _)
  obtain ⟨es, e1, e2⟩ := key
  show _ ∉ (handleElectionTimeout s0).2.trace
  rw [e1, ← hs]
  intro hm
  have := e2 _ (show _ ∈ es from hm)
  cases this

/-- The request to leave of server 1 in term 1. -/
def leaveReqOf (i : Int) : Req :=
  { type := .leaveReq, term := 1, src := 1, dst := i, lastTerm := 0, lastIdx := 1, commitIdx := 1 }
/-- The first append request of server 1 in term 1. -/
def firstAppend (i : Int) : Req :=
  { type := .appendReq, term := 1, src := 1, dst := i, lastTerm := 0, lastIdx := 0, commitIdx := 1,
    entries := [⟨1, .conf ⟨1, 0, conf3.servers⟩⟩] }

/-- C77 fails: server 1 asks server 2 to leave and crashes before it has appended a configuration without server 2. Nothing is heard of
it for two election timeouts. Server 2 takes itself out of its configuration on disk and ends, although the last configuration, which is
committed, has it. -/
theorem member_leaves : ∃ n fx, Hist { id := 2 } (Node.fresh conf3)
      [.req (firstAppend 2), .apply, .req (leaveReqOf 2), .electionTimeout, .electionTimeout] fx n ∧
    n.up = none ∧ fx.getLast? = some (.exit (-1)) ∧ n.disk.log = ⟨1, [⟨1, .conf ⟨1, 0, conf3.servers⟩⟩]⟩ ∧
    n.disk.config.servers.map SrvCfg.id = [1, 3] := by
  obtain ⟨n, fx, h, hp⟩ := Node.witness (c := { id := 2 }) (n := Node.fresh conf3)
    [.start, .go (.req (firstAppend 2)), .go .apply, .go (.req (leaveReqOf 2)), .go .electionTimeout, .crash .electionTimeout 2]
    (fun n fx => n.up.isNone && decide (fx.getLast? = some (.exit (-1))) && decide (n.disk.log = ⟨1, [⟨1, .conf ⟨1, 0, conf3.servers⟩⟩]⟩) &&
      decide (n.disk.config.servers.map SrvCfg.id = [1, 3])) (by decide +kernel)
  simp only [Bool.and_eq_true, decide_eq_true_eq, Option.isNone_iff_eq_none] at hp
  exact ⟨n, fx, h, hp.1.1.1, hp.1.1.2, hp.1.2, hp.2⟩

/-- The case of C76: server 2 agrees to leave, then time passes, and both election timeouts come. -/
example : ∃ d s s1 s2 fx fx', Hist { id := 2 } (Node.fresh conf3) [.req (firstAppend 2), .apply] fx ⟨d, some s⟩ ∧
    (Input.req (leaveReqOf 2)).run { s with trace := [] } = (.ok ⟨⟩, s1) ∧
    answers s1.trace = [{ type := .leaveResp, term := 1, src := 2, dst := 1, nextIdx := 2, accepted := true }] ∧
    Runs s1 [.tick 7] fx' s2 ∧ s2.now = 7 := by
  obtain ⟨⟨d, up⟩, fx, h, hp⟩ := Node.witness (c := { id := 2 }) (n := Node.fresh conf3) [.start, .go (.req (firstAppend 2)), .go .apply]
    (fun n _ => match n.up with
      | some s =>
        (match (Input.req (leaveReqOf 2)).run { s with trace := [] } with
        | (.ok _, s1) => decide (answers s1.trace = [{ type := .leaveResp, term := 1, src := 2, dst := 1, nextIdx := 2, accepted := true }]) &&
          (match (Input.tick 7).run { s1 with trace := [] } with | (.ok _, s2) => decide (s2.now = 7) | _ => false)
        | _ => false)
      | none => false) (by decide +kernel)
  rcases up with _ | s
  · cases hp
  simp only [] at hp
  rcases h1 : (Input.req (leaveReqOf 2)).run { s with trace := [] } with ⟨e | u, s1⟩
  · rw [h1] at hp; cases hp
  rw [h1] at hp
  rcases h2 : (Input.tick 7).run { s1 with trace := [] } with ⟨e | u, s2⟩
  · simp only [h2, Bool.and_false] at hp; cases hp
  simp only [h2, Bool.and_eq_true, decide_eq_true_eq] at hp
  exact ⟨d, s, s1, s2, fx, _, h, h1, hp.1, Runs.step .nil h2 (.inl rfl), hp.2⟩

end Cs.Raft
