import Verif.Cluster.World

/-!
# The state of the cluster and the state of the protocol
-/

namespace Cs.Raft
open Cs

/-- The effects without their causes. -/
def World.hist (w : World) : History := w.evs.map fun ev => (ev.node, ev.eff)

/-- A server, its disk, and the part of them the protocol looks at. -/
structure NodeOk (cs : List SrvCfg) (H : History) (i : Int) (n : Node) (c : PS) : Prop where
  disk : DiskOk cs n.disk c
  up : ∀ s, n.up = some s → Good cs H i s ∧ abs s = c
  down : n.up = none → c.role = .follower ∧ c.counting = false ∧ c.qc = n.disk.applied

/-- What the states of the servers and the events have to do with each other. -/
structure Linked (C : Cluster) (w : World) (ps : Int → PS) : Prop where
  nodes : ∀ i ∈ C.ids, NodeOk C.servers w.hist i (w.node i) (ps i)
  disks : ∀ i, (w.node i).disk = C.diskAt w.evs i
  effs : ∀ ev ∈ w.evs, EffOk C.servers ev.eff
  replies : ∀ ev ∈ w.evs, ∀ q r, ev.cause = some (.req q) → ev.eff = .reply r → q.type ≠ .clientReq → RespFor q ev.node r
  acks : ∀ ev ∈ w.evs, ∀ r, ev.eff = .reply r → r.type = .appendResp → r.accepted = true → 0 < r.nextIdx

variable {C : Cluster} {w : World} {ps : Int → PS}

theorem mem_hist {i : Int} {e : Eff} : (i, e) ∈ w.hist ↔ ∃ ev ∈ w.evs, ev.node = i ∧ ev.eff = e := by
  unfold World.hist
  rw [List.mem_map]
  constructor
  · rintro ⟨ev, h1, h2⟩; cases h2; exact ⟨ev, h1, rfl, rfl⟩
  · rintro ⟨ev, h1, rfl, rfl⟩; exact ⟨ev, h1, rfl⟩

theorem hist_snoc {n : Int → Node} {i : Int} {x : Option Input} {es : List Eff} :
    World.hist ⟨n, w.evs ++ es.map fun e => ⟨i, x, e⟩⟩ = w.hist ++ es.map fun e => (i, e) := by
  show (w.evs ++ _).map _ = _
  rw [List.map_append, List.map_map]
  rfl

theorem diskAt_snoc {E : List Ev} {i k : Int} {x : Option Input} {es : List Eff} :
    C.diskAt (E ++ es.map fun e => ⟨i, x, e⟩) k = if k = i then (C.diskAt E k).afterAll es else C.diskAt E k := by
  unfold Cluster.diskAt Disk.afterAll
  rw [List.filter_append, List.map_append, List.foldl_append]
  by_cases h : k = i
  · rw [if_pos h]
    have : (es.map fun e => (⟨i, x, e⟩ : Ev)).filter (fun ev => decide (ev.node = k)) = es.map fun e => ⟨i, x, e⟩ := by
      rw [List.filter_eq_self]
      intro ev hev
      obtain ⟨e, _, rfl⟩ := List.mem_map.1 hev
      simp [h]
    rw [this, List.map_map]
    have : (Ev.eff ∘ fun e => (⟨i, x, e⟩ : Ev)) = id := rfl
    rw [this, List.map_id]
  · rw [if_neg h]
    have : (es.map fun e => (⟨i, x, e⟩ : Ev)).filter (fun ev => decide (ev.node = k)) = [] := by
      rw [List.filter_eq_nil_iff]
      intro ev hev
      obtain ⟨e, _, rfl⟩ := List.mem_map.1 hev
      simp [Ne.symm h]
    rw [this]
    rfl

/-- What may be delivered is what the protocol expects. -/
theorem Linked.allowed (hC : C.Ok) (h : Linked C w ps) (hv : VotesOk C.ids ps w.hist) {i : Int} {x : Input}
    (hd : Deliver w.evs i x) : Allowed C.servers w.hist i x := by
  have sentOk : ∀ {ev : Ev} {q : Req}, ev ∈ w.evs → ev.eff = .send q →
      (q.type = .voteReq ∨ q.type = .appendReq ∨ q.type = .prevoteReq) ∧ (∀ e ∈ q.entries, ConfOk C.servers e) ∧
      (q.type ≠ .prevoteReq → q.src = ev.node ∧ ev.node ∈ C.ids) := by
    intro ev q h1 h2
    have h3 := h.effs ev h1
    rw [h2] at h3
    have h4 : (ev.node, .send q) ∈ w.hist := mem_hist.2 ⟨ev, h1, rfl, h2⟩
    exact ⟨h3.1, h3.2, fun hp => ⟨(hv.sent h4 hp).1, hv.mem h4⟩⟩
  cases hd with
  | @request ev m h1 h2 h3 =>
    obtain ⟨a, b, c⟩ := sentOk h1 h2
    have hs : ∃ j, (j, .send m) ∈ w.hist := ⟨ev.node, mem_hist.2 ⟨ev, h1, rfl, h2⟩⟩
    rcases a with a | a | a
    · refine .inr (.inl ⟨⟨hs, h3, a⟩, ?_⟩)
      obtain ⟨c1, c2⟩ := c (by rw [a]; nofun)
      rw [c1]; rintro hn; rw [hn] at c2; exact hC.named c2
    · exact .inl ⟨⟨hs, h3, a⟩, b⟩
    · exact .inr (.inr (.inl a))
  | client h1 h2 =>
    refine .inr (.inr (.inr ⟨h1, fun e he c hc => ?_⟩))
    have := h2 e he
    unfold Entry.isApp at this
    rw [hc] at this
    cases this
  | @answer e1 e2 q r h1 h2 h3 h4 h5 h6 h7 h8 =>
    obtain ⟨a, b, c⟩ := sentOk h1 h3
    have hq : q.type ≠ .clientReq := by rcases a with a | a | a <;> rw [a] <;> nofun
    obtain ⟨r1, r2, r3, r4⟩ := h.replies e2 h5 q r h7 h8 hq
    have hr : (r.src, .reply r) ∈ w.hist := mem_hist.2 ⟨e2, h5, r1.symm, h8⟩
    refine ⟨?_, fun hacc => ⟨hr, fun ht => ?_, fun ht => h.acks e2 h5 r h8 ht hacc⟩⟩
    · rcases a with a | a | a
      · exact .inl (r2 a).1
      · exact .inr (r3 a)
      · exact absurd a h4
    · rcases a with a | a | a
      · rw [(r2 a).2, (c h4).1, h2]
      · rw [r3 a] at ht; cases ht
      · exact absurd a h4
  | @prevoted e1 e2 q r h1 h2 h3 h4 h5 h6 h7 h8 =>
    obtain ⟨r1, r2, r3, r4⟩ := h.replies e2 h5 q r h7 h8 (by rw [h4]; nofun)
    exact r4 h4
  | failed => trivial
  | prefailed h1 h2 h3 h4 => exact h4
  | election => trivial
  | heartbeat => trivial
  | apply => trivial
  | replicate => trivial
  | tick => trivial

/-- The commit index of an append request, at the point where it is taken over. -/
def TakesOver (H : History) (i : Int) (d : Disk) (x : Option Input) (es : List Eff) : Prop :=
  ∀ m, x = some (.req m) → m.type ≠ .clientReq → ∀ es1 n es2, es = es1 ++ .advance n :: es2 →
    n = m.commitIdx ∧ Sent H i .appendReq m ∧ m.term = (d.afterAll es1).term ∧
    Agree (d.afterAll es1).log.ents m m.entries.length

theorem afterAll_append (d : Disk) (a b : List Eff) : d.afterAll (a ++ b) = (d.afterAll a).afterAll b := by
  unfold Disk.afterAll; rw [List.foldl_append]

/-- One input, up to the point where the code stops. -/
theorem input_path {cs : List SrvCfg} {H : History} {i : Int} [Member cs i] {d : Disk} {s : Srv} {x : Input}
    (hd : DiskOk cs d (abs s)) (g : Good cs H i s) (ha : Allowed cs H i x) :
    Good cs H i (x.run { s with trace := [] }).2 ∧
    Path cs H i (abs s) (x.run { s with trace := [] }).2.trace (abs (x.run { s with trace := [] }).2) ∧
    TakesOver H i d (some x) (x.run { s with trace := [] }).2.trace ∧
    ∀ q r, x = .req q → q.type ≠ .clientReq → .reply r ∈ (x.run { s with trace := [] }).2.trace → RespFor q i r := by
  have g0 : Good cs H i { s with trace := [] } :=
    Still.good (s := s) ⟨rfl, rfl, rfl, rfl, rfl, rfl, rfl, rfl, rfl, rfl, rfl, rfl, rfl, fun h => h, rfl⟩ g
  have ab : abs s = abs { s with trace := [] } := rfl
  rw [ab] at hd ⊢
  have tr : ({ s with trace := [] } : Srv).trace = [] := rfl
  generalize ({ s with trace := [] } : Srv) = s0 at g0 hd tr
  obtain ⟨g1, es, h1, p⟩ := allowed_T g0 ha
  rw [tr, List.nil_append] at h1
  rw [h1]
  refine ⟨g1, p, ?_, ?_⟩
  · intro m hm hc es1 n es2 he
    cases hm
    have ha' : ReqOk cs H i m := ha
    obtain ⟨fs, f1, f2, f3⟩ := req_shape g0 ha' hc
    rw [tr, List.nil_append, h1] at f1
    rw [← f1] at f2 f3
    obtain ⟨x1, x2, x3, x4, x5⟩ := f3 es1 n es2 he
    have hdd := p.disk hd
    have hsame : d.afterAll es = d.afterAll es1 := by
      rw [he, afterAll_append]
      rcases x5 with x5 | ⟨r, x5⟩ <;> rw [x5] <;> rfl
    rw [hsame] at hdd
    refine ⟨x1, ?_, ?_, ?_⟩
    · rcases ha' with h | h | h | h
      · exact h.1
      · rw [h.1.2.2] at x2; cases x2
      · rw [h] at x2; cases x2
      · rw [h.1] at x2; cases x2
    · rw [hdd.term]; exact x3
    · rw [hdd.log]; exact x4
  · intro q r hq hc hr
    cases hq
    obtain ⟨fs, f1, f2, f3⟩ := req_shape g0 (show ReqOk cs H i q from ha) hc
    rw [tr, List.nil_append, h1] at f1
    rw [← f1] at f2
    exact f2 r hr

/-- One step of the cluster is a path of the protocol, and the end of the process if it stops. -/
theorem Linked.step (hC : C.Ok) (hv : VotesOk C.ids ps w.hist) (h : Linked C w ps) {w' : World} (st : C.Step w w') :
    ∃ i x es c1 c', i ∈ C.ids ∧ w'.evs = (w.evs ++ es.map fun e => ⟨i, x, e⟩) ∧ w'.hist = w.hist ++ es.map (fun e => (i, e)) ∧
      Path C.servers w.hist i (ps i) es c1 ∧
      (c' = c1 ∨ ∃ q, q ≤ c1.qc ∧ c' = { c1 with role := .follower, counting := false, qc := q }) ∧
      Linked C w' (upd ps i c') ∧ TakesOver w.hist i (C.diskAt w.evs i) x es := by
  cases st with
  | @mk i x es n hi hx st =>
    have hm : Member C.servers i := ⟨hC.nodup, hi, fun he => hC.named (he ▸ hi)⟩
    have hn := h.nodes i hi
    have key : ∀ {c1 c' : PS}, Path C.servers w.hist i (ps i) es c1 →
        DiskOk C.servers n.disk c' →
        (∀ s, n.up = some s → Good C.servers (w.hist ++ es.map fun e => (i, e)) i s ∧ abs s = c') →
        (n.up = none → c'.role = .follower ∧ c'.counting = false ∧ c'.qc = n.disk.applied) →
        n.disk = (w.node i).disk.afterAll es →
        (∀ q r, x = some (.req q) → q.type ≠ .clientReq → .reply r ∈ es → RespFor q i r) →
        Linked C ⟨fun k => if k = i then n else w.node k, w.evs ++ es.map fun e => ⟨i, x, e⟩⟩ (upd ps i c') := by
      intro c1 c' hp k1 k2 k3 k4 k5
      refine ⟨?_, ?_, ?_, ?_, ?_⟩
      · intro k hk
        rw [hist_snoc]
        by_cases hki : k = i
        · subst hki
          rw [upd_self]
          simp only [if_true]
          exact ⟨k1, k2, k3⟩
        · rw [upd_ne hki]
          simp only [if_neg hki]
          have a := h.nodes k hk
          exact ⟨a.disk, fun s hs => ⟨(a.up s hs).1.mono fun y hy => List.mem_append.2 (.inl hy), (a.up s hs).2⟩, a.down⟩
      · intro k
        rw [diskAt_snoc]
        by_cases hki : k = i
        · subst hki
          simp only [if_true]
          rw [k4, h.disks]
        · simp only [if_neg hki]
          exact h.disks k
      · intro ev hev
        rcases List.mem_append.1 hev with hev | hev
        · exact h.effs ev hev
        · obtain ⟨e, he, rfl⟩ := List.mem_map.1 hev
          exact (hp.effs e he).1
      · intro ev hev q r hq hr hc
        rcases List.mem_append.1 hev with hev | hev
        · exact h.replies ev hev q r hq hr hc
        · obtain ⟨e, he, rfl⟩ := List.mem_map.1 hev
          have hr : e = .reply r := hr
          rw [hr] at he
          exact k5 q r hq hc he
      · intro ev hev r hr ht ha
        rcases List.mem_append.1 hev with hev | hev
        · exact h.acks ev hev r hr ht ha
        · obtain ⟨e, he, rfl⟩ := List.mem_map.1 hev
          have hr : e = .reply r := hr
          rw [hr] at he
          obtain ⟨_, a, b, hab⟩ := hp.effs _ he
          exact hab.acks ht ha
    have grow : ∀ y ∈ w.hist, y ∈ w.hist ++ es.map fun e => (i, e) := fun y hy => List.mem_append.2 (.inl hy)
    have hdk := h.disks i
    rcases hw : w.node i with ⟨d, up⟩
    rw [hw] at hn st key hdk
    replace hdk : d = C.diskAt w.evs i := hdk
    cases st with
    | @run _ s s' x hr =>
      obtain ⟨g, ab⟩ := hn.up s rfl
      have ha := h.allowed hC hv (hx x rfl)
      have hin := input_path (d := d) (by rw [ab]; exact hn.disk) g ha
      rw [hr, ab] at hin
      obtain ⟨g1, p, to, rf⟩ := hin
      refine ⟨i, some x, s'.trace, abs s', abs s', hi, rfl, hist_snoc, p, .inl rfl, ?_, by rw [← hdk]; exact to⟩
      exact key p (p.disk hn.disk) (fun y hy => by cases hy; exact ⟨g1.mono grow, rfl⟩) (fun hy => by cases hy) rfl
        fun q r hq => rf q r (Option.some.inj hq)
    | @survive _ s s' x hr =>
      obtain ⟨g, ab⟩ := hn.up s rfl
      have ha := h.allowed hC hv (hx x rfl)
      have hin := input_path (d := d) (by rw [ab]; exact hn.disk) g ha
      rw [hr, ab] at hin
      obtain ⟨g1, p, to, rf⟩ := hin
      refine ⟨i, some x, s'.trace, abs s', abs s', hi, rfl, hist_snoc, p, .inl rfl, ?_, by rw [← hdk]; exact to⟩
      exact key p (p.disk hn.disk) (fun y hy => by cases hy; exact ⟨g1.mono grow, rfl⟩) (fun hy => by cases hy) rfl
        fun q r hq => rf q r (Option.some.inj hq)
    | @crash _ s x es hpre =>
      obtain ⟨g, ab⟩ := hn.up s rfl
      have ha := h.allowed hC hv (hx x rfl)
      have hin := input_path (d := d) (by rw [ab]; exact hn.disk) g ha
      rw [ab] at hin
      obtain ⟨g1, p, to, rf⟩ := hin
      obtain ⟨c1, p1⟩ := p.take hpre
      have hd1 := p1.disk hn.disk
      refine ⟨i, some x, es, c1, { c1 with role := .follower, counting := false, qc := (d.afterAll es).applied }, hi, rfl,
        hist_snoc, p1, .inr ⟨_, hd1.applied, rfl⟩, ?_, ?_⟩
      · exact key p1 ⟨hd1.term, hd1.vote, hd1.log, Nat.le_refl _, hd1.servers, hd1.conf⟩ (fun y hy => by cases hy)
          (fun _ => ⟨rfl, rfl, rfl⟩) rfl fun q r hq hc hr => rf q r (Option.some.inj hq) hc (hpre.subset hr)
      · rw [← hdk]
        intro m hm hc es1 n es2 he
        obtain ⟨rest, hrest⟩ := hpre
        exact to m hm hc es1 n (es2 ++ rest) (by rw [← hrest, he]; simp)
    | boot =>
      obtain ⟨r1, r2, r3⟩ := hn.down rfl
      refine ⟨i, none, [], ps i, ps i, hi, rfl, hist_snoc, .nil _, .inl rfl, ?_, fun m hm => by cases hm⟩
      refine key (.nil _) hn.disk (fun y hy => ?_) (fun hy => by cases hy) rfl (fun q r hq => by cases hq)
      cases hy
      exact ⟨boot_good hn.disk hC.nodup (hC.noSnap i), boot_abs hn.disk r1 r2 r3⟩

theorem Linked.init (hC : C.Ok) : Linked C C.init fun _ => {} := by
  have e0 : ∀ ev, ev ∉ C.init.evs := fun ev h => by cases h
  refine ⟨fun i _ => ⟨⟨rfl, rfl, rfl, Nat.le_refl _, hC.config i, ?_⟩, ?_, fun _ => ⟨rfl, rfl, rfl⟩⟩, fun i => rfl,
    fun ev h => absurd h (e0 ev), fun ev h => absurd h (e0 ev), fun ev h => absurd h (e0 ev)⟩
  · intro e he
    cases he
  · intro s hs
    cases hs

/-- Everything that is known about a reachable state. -/
structure Inv (C : Cluster) (w : World) (ps : Int → PS) (g : Ghost) : Prop where
  linked : Linked C w ps
  safe : SafeOk C.ids ps w.hist g

theorem Inv.init (hC : C.Ok) : Inv C C.init (fun _ => {}) {} := ⟨.init hC, SafeOk.init _ _ fun _ => rfl⟩

theorem Inv.step {g : Ghost} (hC : C.Ok) (h : Inv C w ps g) {w' : World} (st : C.Step w w') :
    ∃ ps' g', Ghost.Le w.hist g g' ∧ (∀ x ∈ w.hist, x ∈ w'.hist) ∧ Inv C w' ps' g' := by
  obtain ⟨i, x, es, c1, c', hi, he, hh, p, hc, hl, _⟩ := h.linked.step hC h.safe.logs.votes st
  obtain ⟨g', hle, hs⟩ := p.safe hC.named hi (fun _ h => h) rfl h.safe
  refine ⟨upd ps i c', g', hle, fun y hy => by rw [hh]; exact List.mem_append.2 (.inl hy), hl, ?_⟩
  rw [hh]
  rcases hc with rfl | ⟨q, hq, rfl⟩
  · exact hs
  · have := hs.quiet (i := i) (c := { c1 with role := .follower, counting := false, qc := q })
      (by rw [upd_self]; exact .crash hq)
    rw [upd_upd] at this
    exact this

theorem Inv.run {g : Ghost} (hC : C.Ok) (h : Inv C w ps g) {w' : World} (hr : C.Run w w') :
    ∃ ps' g', Ghost.Le w.hist g g' ∧ (∀ x ∈ w.hist, x ∈ w'.hist) ∧ Inv C w' ps' g' := by
  induction hr with
  | refl => exact ⟨ps, g, Ghost.Le.refl _ _, fun _ h => h, h⟩
  | step _ st ih =>
    obtain ⟨p1, g1, l1, s1, i1⟩ := ih
    obtain ⟨p2, g2, l2, s2, i2⟩ := i1.step hC st
    exact ⟨p2, g2, l1.trans s1 l2, fun x hx => s2 x (s1 x hx), i2⟩

theorem Cluster.Reach.inv (hC : C.Ok) (h : C.Reach w) : ∃ ps g, Inv C w ps g := by
  obtain ⟨ps, g, _, _, h⟩ := (Inv.init hC).run hC h
  exact ⟨ps, g, h⟩

end Cs.Raft
