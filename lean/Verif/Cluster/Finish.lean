import Verif.Cluster.Collect
import Verif.Raft.PropsAnnounce

/-!
# A majority can always make progress: the client's request, and the state machine
-/

namespace Cs.Raft
open Cs

variable {C : Cluster} {M : List Int} {w w' : World} {S S' : Int → Srv} {b k : Int}

/-! ## The request of the client -/

theorem Cluster.Work.more (h : C.Work M w w') : ∃ es, w'.evs = w.evs ++ es := by
  induction h with
  | refl => exact ⟨[], (List.append_nil _).symm⟩
  | step _ _ _ _ _ _ ih =>
    obtain ⟨es, ih⟩ := ih
    exact ⟨es ++ _, by show _ ++ _ = _; rw [ih, List.append_assoc]⟩

theorem client_put (hC : C.Ok) (hup : ∀ i ∈ M, 0 ≤ (C.params i).electionUpper) (h2 : 2 ≤ C.ids.length) (hb : b ∈ M) {s0 : Srv}
    {S0 : Int → Srv} (hs0 : Fine C b s0) (h : Enthroned C M b s0 S0 w S) (d : Nat) :
    ∃ w' S', C.Work M w w' ∧ Running C M w' S' ∧ (S' b).smCommit = s0.smCommit ∧ s0.log.next ≤ (S b).log.next ∧
      (S b).log.next ≤ s0.log.next + 1 ∧
      (∃ r ev es, w'.evs = w.evs ++ es ∧ ev ∈ es ∧ ev.node = b ∧ ev.cause = some (.req (command d)) ∧ ev.eff = .reply r ∧ r.accepted = true ∧
        r.nextIdx = (S b).log.next + 1) ∧
      Gathers M b (S b).term ((S b).log.append ⟨(S b).term, .app d⟩) [] w' S' := by
  obtain ⟨A, a1, a2, a3, c⟩ := h.won
  have hr := h.run
  have f := hr.fine hC hb
  have hlen := fine_length hC (hr.sub b hb) f
  have hlen0 := fine_length hC (hr.sub b hb) hs0
  have hmem : ∀ k ∈ M, k ≠ b → k ∈ s0.peers.map Peer.id := fun k hk hkb => fine_mem hs0 (hr.sub k hk) hkb
  obtain ⟨e, hrun⟩ := client_run (s := S b) (A := A) (d := d) c.lead (by rw [f.params]; exact hup b hb) a1
    (fun k hk => by rw [c.ids]; exact hmem k (a2 k hk).1 (a2 k hk).2) c.heard (by omega)
    (fun hc => by rw [hc, List.length_nil] at hlen; omega)
    (fun k hk => by
      rw [c.ids] at hk
      obtain ⟨p, _, p1, p2, _⟩ := c.asked k hk
      exact ⟨p, p1, p2⟩)
  have hd : Deliver w.evs b (.req (command d)) := .client rfl fun e he => by
    rw [List.mem_singleton.1 he]; rfl
  obtain ⟨w1, r1, _⟩ := hr.put hb hd hrun (fun n hn => by cases hn)
  have hpre := c.log.length_le
  have hs1 := c.start
  have hs2 := hs0.start
  have hsz := c.size
  have hn1 : s0.log.next ≤ (S b).log.next := by unfold Log.next; omega
  have hn2 : (S b).log.next ≤ s0.log.next + 1 := by unfold Log.next; omega
  generalize hS' : nodeAt S b _ = S' at r1
  have eb : S' b = { S b with
      elapsed := e, log := (S b).log.append ⟨(S b).term, .app d⟩,
      trace := [.append ⟨(S b).term, .app d⟩, .preCommit (S b).log.next ⟨(S b).term, .app d⟩, .reply { type := .appendResp, term := (S b).term, src := (S b).id, dst := (S b).leader, nextIdx := (S b).log.next + 1, accepted := true }] } := by
    rw [← hS']; exact nodeAt_self _ _ _
  refine ⟨_, S', w1, r1, by rw [eb]; exact c.applied, hn1, hn2, ⟨_, _, _, rfl, List.mem_map.2 ⟨_, List.mem_cons_of_mem _ (List.mem_cons_of_mem _ (List.mem_singleton.2 rfl)), rfl⟩, rfl, rfl, rfl, rfl, rfl⟩,
    ⟨by rw [eb]; exact c.lead, by rw [eb], by rw [eb], ?_, ?_, ?_, List.nodup_nil, fun _ h => (by cases h), fun _ h => (by cases h), fun _ h => absurd rfl h⟩⟩
  · rw [eb]
    intro p hp
    have := c.next p hp
    rw [Log.next_append]; omega
  · intro j hj
    by_cases hjb : j = b
    · rw [hjb, eb]; exact Nat.le_refl _
    · rw [← hS', nodeAt_ne hjb, c.term]; exact (h.others j hj hjb).2.2
  · intro k hk hkb _
    obtain ⟨p, q, p1, p2, p3, p4, p5⟩ := c.asked k (hmem k hk hkb)
    obtain ⟨ev, e1, e2, e3⟩ := h.sent _ p4
    have hpos : 0 < s0.log.next := by unfold Log.next; omega
    refine ⟨s0.log.next, q, ⟨p, by rw [eb]; exact p1, p2, p3⟩, hpos, ⟨ev, w1.evs _ e1, e2, e3⟩, ?_⟩
    rw [eb]
    exact p5.grow hpos hn1 c.start (by show (S b).log.start = 1; exact c.start) rfl (List.prefix_append _ _)

/-! ## The state machine -/

/-- One more entry is applied. -/
structure AppliesNext (s s' : Srv) : Prop where
  role : s'.role = s.role
  term : s'.term = s.term
  log : s'.log = s.log
  quick : s'.quickCommit = s.quickCommit
  applied : s'.smCommit = s.smCommit + 1
  event : ∀ e d, s.log.get? (s.smCommit + 1) = some e → e.val = .app d → .commit (s.smCommit + 1) e ∈ s'.trace

theorem run_commitConf {cs : List SrvCfg} {H : History} {i : Int} [Member cs i] {s : Srv} {c : Config} (g : Good cs H i s) (hc : c.servers = cs) :
    ∃ s', commitConf c s = (.ok ⟨⟩, s') ∧ s'.role = s.role ∧ s'.term = s.term ∧ s'.log = s.log ∧ s'.quickCommit = s.quickCommit ∧
      s'.smCommit = s.smCommit ∧ s'.params = s.params := by
  unfold commitConf
  rw [bind_emit, bind_modify, bind_get]
  have g1 : Good cs H i { s with trace := s.trace ++ [.saveConfig c], configChanging := false } :=
    ⟨g.id, g.start, g.ids, g.servers, g.catching, g.steps, g.join, g.dist, g.conf, g.votes, g.matched⟩
  by_cases h : s.config.logIdx < c.logIdx
  · simp only [if_pos h]
    rw [run_bind_ok (run_reconfigure_same g1 hc)]
    exact ⟨_, rfl, rfl, rfl, rfl, rfl, rfl, rfl⟩
  · simp only [if_neg h]
    exact ⟨_, rfl, rfl, rfl, rfl, rfl, rfl, rfl⟩

theorem run_applyOne {cs : List SrvCfg} {H : History} {i : Int} [Member cs i] {s : Srv} (g : Good cs H i s) (ha : s.canApply = true) :
    ∃ s', applyOne s = (.ok ⟨⟩, s') ∧ AppliesNext s s' := by
  unfold applyOne
  rw [bind_get, if_pos ha, bind_modify]
  have hlt : s.smCommit < s.log.next - 1 := by
    unfold Srv.canApply at ha
    rw [Bool.and_eq_true, decide_eq_true_eq, decide_eq_true_eq] at ha
    exact ha.2
  have g1 : Good cs H i { s with smCommit := s.smCommit + 1 } :=
    ⟨g.id, g.start, g.ids, g.servers, g.catching, g.steps, g.join, g.dist, g.conf, g.votes, g.matched⟩
  obtain ⟨e, he⟩ := Log.get?_some (l := s.log) (i := s.smCommit + 1) (by rw [g.start]; omega) (by omega)
  rw [run_bind_ok (entryToApply_some (s := { s with smCommit := s.smCommit + 1 }) he)]
  have hmem : e ∈ s.log.ents := by
    have he' := he
    rw [get?_one g.start (by omega)] at he'
    exact List.mem_of_getElem? he'
  have h2 : ∃ s', applyEntry (s.smCommit + 1) e { s with smCommit := s.smCommit + 1 } = (.ok ⟨⟩, s') ∧ AppliesNext s s' ∧ s'.params = s.params := by
    have ap : applyEntry (s.smCommit + 1) e = match e.val with
      | .app _ => emit (.commit (s.smCommit + 1) e)
      | .conf c => commitConf c
      | _ => pure () := rfl
    rw [ap]
    rcases hv : e.val with d | c | c | k | _ | _
    · refine ⟨_, rfl, ⟨rfl, rfl, rfl, rfl, rfl, fun e' d' h1 _ => ?_⟩, rfl⟩
      rw [he] at h1
      cases h1
      exact List.mem_append_right _ (List.mem_singleton.2 rfl)
    · obtain ⟨s', k1, k2, k3, k4, k5, k6, k7⟩ := run_commitConf g1 (g.conf e hmem c hv)
      refine ⟨s', k1, ⟨k2, k3, k4, k5, k6, fun e' d' h1 h2 => ?_⟩, k7⟩
      rw [he] at h1
      cases h1
      rw [hv] at h2
      cases h2
    all_goals
      refine ⟨_, rfl, ⟨rfl, rfl, rfl, rfl, rfl, fun e' d' h1 h2 => ?_⟩, rfl⟩
      rw [he] at h1
      cases h1
      rw [hv] at h2
      cases h2
  obtain ⟨s2, h3, h4, h5⟩ := h2
  rw [run_bind_ok h3]
  have : snapshotAndCompact (s.smCommit + 1) s2 = (.ok ⟨⟩, s2) := by
    unfold snapshotAndCompact
    have hw : wantsSnapshot s2 (s.smCommit + 1) = false := by
      unfold wantsSnapshot
      rw [h5, g.dist]
      simp
    rw [bind_get, hw]
    rfl
  exact ⟨_, this, h4⟩

theorem apply_put (hC : C.Ok) (hr : Running C M w S) (hb : b ∈ M) (h1 : (S b).smCommit < (S b).quickCommit)
    (h2 : (S b).smCommit < (S b).log.next - 1) :
    ∃ w' s', C.Work M w w' ∧ Running C M w' (nodeAt S b s') ∧ AppliesNext (S b) s' ∧
      ∃ es, w'.evs = w.evs ++ es ∧ ∀ e ∈ s'.trace, ∃ ev ∈ es, ev.node = b ∧ ev.eff = e := by
  obtain ⟨ps, g, hI⟩ := hr.reach.inv hC
  obtain ⟨g1, _⟩ := (hI.linked.nodes b (hr.sub b hb)).up _ (hr.up b hb)
  haveI := hI.member hC (hr.sub b hb)
  have g2 : Good C.servers w.hist b { S b with trace := [] } :=
    ⟨g1.id, g1.start, g1.ids, g1.servers, g1.catching, g1.steps, g1.join, g1.dist, g1.conf, g1.votes, g1.matched⟩
  obtain ⟨s', a1, a2⟩ := run_applyOne g2 (by unfold Srv.canApply; simp only [Bool.and_eq_true, decide_eq_true_eq]; exact ⟨h1, h2⟩)
  obtain ⟨c1, c2, _⟩ := hr.put (x := .apply) hb .apply a1 (fun n hn => by cases hn)
  exact ⟨_, s', c1, c2, ⟨a2.role, a2.term, a2.log, a2.quick, a2.applied, a2.event⟩, _, rfl, fun e he => ⟨_, List.mem_map.2 ⟨e, he, rfl⟩, rfl, rfl⟩⟩

/-- Everything that is committed gets applied. -/
theorem apply_all (hC : C.Ok) (hb : b ∈ M) {N d : Nat} {e : Entry} (hd : e.val = .app d) : ∀ (m : Nat) {w : World} {S : Int → Srv}, Running C M w S →
    (S b).smCommit + 1 + m = N → N ≤ (S b).quickCommit → N < (S b).log.next → (S b).log.get? N = some e →
    ∃ w' s', C.Work M w w' ∧ Running C M w' (nodeAt S b s') ∧ s'.role = (S b).role ∧ s'.term = (S b).term ∧ s'.log = (S b).log ∧
      s'.quickCommit = (S b).quickCommit ∧ ∃ es, w'.evs = w.evs ++ es ∧ ∃ ev ∈ es, ev.node = b ∧ ev.eff = .commit N e := by
  intro m
  induction m with
  | zero =>
    intro w S hr h1 h2 h3 h4
    obtain ⟨w', s', a1, a2, a3, es, a5, a4⟩ := apply_put hC hr hb (by omega) (by omega)
    have hev := a3.event e d (by rw [show (S b).smCommit + 1 = N by omega]; exact h4) hd
    rw [show (S b).smCommit + 1 = N by omega] at hev
    exact ⟨w', s', a1, a2, a3.role, a3.term, a3.log, a3.quick, es, a5, a4 _ hev⟩
  | succ m ih =>
    intro w S hr h1 h2 h3 h4
    obtain ⟨w1, s1, a1, a2, a3, es, a5, a4⟩ := apply_put hC hr hb (by omega) (by omega)
    have e1 := nodeAt_self S b s1
    obtain ⟨w2, s2, b1, b2, b3, b4, b5, b6, es2, b7, b8, b9⟩ := ih a2 (by rw [e1, a3.applied]; omega) (by rw [e1, a3.quick]; exact h2)
      (by rw [e1, a3.log]; exact h3) (by rw [e1, a3.log]; exact h4)
    rw [nodeAt_setAt] at b2
    rw [e1] at b3 b4 b5 b6
    exact ⟨w2, s2, a1.trans b1, b2, b3.trans a3.role, b4.trans a3.term, b5.trans a3.log, b6.trans a3.quick, es ++ es2, by rw [b7, a5, List.append_assoc], b8,
      List.mem_append_right _ b9.1, b9.2⟩

end Cs.Raft
