import Verif.Cluster.CutWorld
import Verif.Cluster.Inv

/-!
# A cluster that compacts its logs, and the state of the protocol
-/

namespace Cs.Raft.Cut
open Cs Cs.Raft

/-- Effects the protocol knows: all but those of snapshots. -/
def kept : Eff → Bool
  | .madeSnp _ | .compact _ => false
  | e => core e

/-- The effects without their causes and without those of snapshots. -/
def hist (w : World) : History := (w.evs.filter fun ev => kept ev.eff).map fun ev => (ev.node, ev.eff)

/-- A server, its disk, and the part of them the protocol looks at. -/
structure NodeOk (cs : List SrvCfg) (H : History) (i : Int) (pre : List Entry) (n : Node) (c : PS) : Prop where
  disk : DiskOk cs pre n.disk c
  up : ∀ s, n.up = some s → Good cs H i pre s ∧ abs pre s = c
  down : n.up = none → c.role = .follower ∧ c.counting = false ∧ c.qc = n.disk.applied

/-- What the states of the servers and the events have to do with each other. -/
structure Linked (C : Cluster) (w : World) (ps : Int → PS) : Prop where
  nodes : ∀ i ∈ C.ids, ∃ pre, NodeOk C.servers (hist w) i pre (w.node i) (ps i)
  disks : ∀ i, (w.node i).disk = C.diskAt w.evs i
  effs : ∀ ev ∈ w.evs, kept ev.eff = true → EffOk C.servers ev.eff
  causes : ∀ ev ∈ w.evs, ∀ q, ev.cause = some (.req q) → q.type ≠ .snpReq
  replies : ∀ ev ∈ w.evs, ∀ q r, ev.cause = some (.req q) → ev.eff = .reply r → q.type ≠ .clientReq → RespFor q ev.node r
  acks : ∀ ev ∈ w.evs, ∀ r, ev.eff = .reply r → r.type = .appendResp → r.accepted = true → 0 < r.nextIdx

variable {C : Cluster} {w : World} {ps : Int → PS}

theorem mem_hist {i : Int} {e : Eff} : (i, e) ∈ hist w ↔ kept e = true ∧ ∃ ev ∈ w.evs, ev.node = i ∧ ev.eff = e := by
  unfold hist
  rw [List.mem_map]
  constructor
  · rintro ⟨ev, h1, h2⟩
    obtain ⟨h3, h4⟩ := List.mem_filter.1 h1
    cases h2
    exact ⟨h4, ev, h3, rfl, rfl⟩
  · rintro ⟨h4, ev, h1, rfl, rfl⟩; exact ⟨ev, List.mem_filter.2 ⟨h1, h4⟩, rfl⟩

theorem hist_snoc {n : Int → Node} {i : Int} {x : Option Input} {es : List Eff} :
    hist ⟨n, w.evs ++ es.map fun e => ⟨i, x, e⟩⟩ = hist w ++ (es.filter kept).map fun e => (i, e) := by
  show ((w.evs ++ _).filter _).map _ = _
  rw [List.filter_append, List.map_append, List.filter_map, List.map_map]
  rfl

theorem kept_send {q : Req} (h : q.type ≠ .snpReq) : kept (.send q) = true := by
  show (q.type != .snpReq) = true
  simp [h]

/-- What may be delivered is what the protocol expects, or the end of a snapshot. -/
theorem Linked.allowed (hC : C.OkS) (h : Linked C w ps) (hv : VotesOk C.ids ps (hist w)) {i : Int} {x : Input}
    (hd : Deliver w.evs i x) (hx : ∀ m, x = .req m → m.type ≠ .snpReq) : Allowed C.servers (hist w) i x := by
  have sentOk : ∀ {ev : Ev} {q : Req}, ev ∈ w.evs → ev.eff = .send q → q.type ≠ .snpReq →
      (q.type = .voteReq ∨ q.type = .appendReq ∨ q.type = .prevoteReq) ∧ (∀ e ∈ q.entries, ConfOk C.servers e) ∧
      (q.type ≠ .prevoteReq → q.src = ev.node ∧ ev.node ∈ C.ids) := by
    intro ev q h1 h2 hn
    have h3 := h.effs ev h1
    rw [h2] at h3
    replace h3 := h3 (kept_send hn)
    have h4 : (ev.node, .send q) ∈ hist w := mem_hist.2 ⟨kept_send hn, ev, h1, rfl, h2⟩
    exact ⟨h3.1, h3.2, fun hp => ⟨(hv.sent h4 hp).1, hv.mem h4⟩⟩
  cases hd with
  | @request ev m h1 h2 h3 =>
    have hn := hx m rfl
    obtain ⟨a, b, c⟩ := sentOk h1 h2 hn
    have hs : ∃ j, (j, .send m) ∈ hist w := ⟨ev.node, mem_hist.2 ⟨kept_send hn, ev, h1, rfl, h2⟩⟩
    rcases a with a | a | a
    · refine .inr (.inl ⟨⟨hs, h3, a⟩, ?_⟩)
      obtain ⟨c1, c2⟩ := c (by rw [a]; nofun)
      rw [c1]; rintro hn; rw [hn] at c2; exact hC.named c2
    · exact .inl ⟨⟨hs, h3, a⟩, b⟩
    · exact .inr (.inr (.inl a))
  | client h1 h2 =>
    refine .inr (.inr (.inr ⟨h1, fun e he c hc => ?_⟩))
    have := h2 e he
    unfold Entry.isApp at this
    rw [hc] at this
    cases this
  | @answer e1 e2 q r h1 h2 h3 h4 h5 h6 h7 h8 =>
    obtain ⟨a, b, c⟩ := sentOk h1 h3 (h.causes e2 h5 q h7)
    have hq : q.type ≠ .clientReq := by rcases a with a | a | a <;> rw [a] <;> nofun
    obtain ⟨r1, r2, r3, r4⟩ := h.replies e2 h5 q r h7 h8 hq
    have hr : (r.src, .reply r) ∈ hist w := mem_hist.2 ⟨rfl, e2, h5, r1.symm, h8⟩
    refine ⟨?_, fun hacc => ⟨hr, fun ht => ?_, fun ht => h.acks e2 h5 r h8 ht hacc⟩⟩
    · rcases a with a | a | a
      · exact .inl (r2 a).1
      · exact .inr (r3 a)
      · exact absurd a h4
    · rcases a with a | a | a
      · rw [(r2 a).2, (c h4).1, h2]
      · rw [r3 a] at ht; cases ht
      · exact absurd a h4
  | @prevoted e1 e2 q r h1 h2 h3 h4 h5 h6 h7 h8 =>
    obtain ⟨r1, r2, r3, r4⟩ := h.replies e2 h5 q r h7 h8 (by rw [h4]; nofun)
    exact r4 h4
  | failed => trivial
  | prefailed h1 h2 h3 h4 => exact h4
  | election => trivial
  | heartbeat => trivial
  | apply => trivial
  | replicate => trivial
  | tick => trivial

/-- The commit index of an append request, at the point where it is taken over. -/
def TakesOver (H : History) (i : Int) (pre : List Entry) (d : Disk) (x : Option Input) (es : List Eff) : Prop :=
  ∀ m, x = some (.req m) → m.type ≠ .clientReq → ∀ es1 n es2, es = es1 ++ .advance n :: es2 →
    n = m.commitIdx ∧ Sent H i .appendReq m ∧ m.term = (d.afterAll es1).term ∧
    Agree (pre ++ (d.afterAll es1).log.ents) m m.entries.length

theorem kept_core {e : Eff} (h : kept e = true) : core e = true := by
  cases e <;> first | exact h | cases h

/-- Along a path no snapshot is finished. -/
theorem path_kept {cs : List SrvCfg} {H : History} {i : Int} {c c' : PS} {es : List Eff}
    (p : Path cs H i c (es.filter core) c') : ∀ e ∈ es, kept e = core e := by
  intro e he
  by_cases h : core e = true
  · obtain ⟨_, a, b, hab⟩ := p.effs e (List.mem_filter.2 ⟨he, h⟩)
    cases e with
    | madeSnp => cases hab with | other hn => exact hn.elim
    | compact => cases hab with | other hn => exact hn.elim
    | _ => rfl
  · by_cases h' : kept e = true
    · exact absurd (kept_core h') h
    · rw [Bool.not_eq_true] at h h'; rw [h, h']

theorem filter_kept {es : List Eff} (h : ∀ e ∈ es, kept e = core e) : es.filter kept = es.filter core :=
  List.filter_congr h

/-- One input, up to the point where the code stops. -/
theorem input_path {cs : List SrvCfg} {H : History} {i : Int} {pre : List Entry} [Member cs i] {d : Disk} {s : Srv} {x : Input}
    (hd : DiskOk cs pre d (abs pre s)) (g : Good cs H i pre s) (ha : Allowed cs H i x) :
    Good cs H i pre (x.run { s with trace := [] }).2 ∧
    Path cs H i (abs pre s) ((x.run { s with trace := [] }).2.trace.filter core) (abs pre (x.run { s with trace := [] }).2) ∧
    High pre (x.run { s with trace := [] }).2.trace ∧
    TakesOver H i pre d (some x) (x.run { s with trace := [] }).2.trace ∧
    ∀ q r, x = .req q → q.type ≠ .clientReq → .reply r ∈ (x.run { s with trace := [] }).2.trace → RespFor q i r := by
  have g0 : Good cs H i pre { s with trace := [] } :=
    Still.good (s := s) ⟨rfl, rfl, rfl, rfl, rfl, rfl, rfl, rfl, rfl, rfl, rfl, rfl, rfl, fun h => h, rfl, rfl⟩ g
  have ab : abs pre s = abs pre { s with trace := [] } := rfl
  rw [ab] at hd ⊢
  have tr : ({ s with trace := [] } : Srv).trace = [] := rfl
  generalize ({ s with trace := [] } : Srv) = s0 at g0 hd tr
  obtain ⟨g1, es, h1, p, hw⟩ := allowed_T g0 ha
  rw [tr, List.nil_append] at h1
  rw [h1]
  refine ⟨g1, p, hw, ?_, ?_⟩
  · intro m hm hc es1 n es2 he
    cases hm
    have ha' : ReqOk cs H i m := ha
    obtain ⟨fs, f1, f2, f3⟩ := req_shape g0 ha' hc
    rw [tr, List.nil_append, h1] at f1
    rw [← f1] at f2 f3
    obtain ⟨x1, x2, x3, x4, x5⟩ := f3 es1 n es2 he
    have hdd := path_disk' p hw hd
    have hsame : d.afterAll es = d.afterAll es1 := by
      rw [he, afterAll_append]
      rcases x5 with x5 | ⟨r, x5⟩ <;> rw [x5] <;> rfl
    rw [hsame] at hdd
    refine ⟨x1, ?_, ?_, ?_⟩
    · rcases ha' with h | h | h | h
      · exact h.1
      · rw [h.1.2.2] at x2; cases x2
      · rw [h] at x2; cases x2
      · rw [h.1] at x2; cases x2
    · rw [hdd.term]; exact x3
    · rw [← hdd.log]; exact x4
  · intro q r hq hc hr
    cases hq
    obtain ⟨fs, f1, f2, f3⟩ := req_shape g0 (show ReqOk cs H i q from ha) hc
    rw [tr, List.nil_append, h1] at f1
    rw [← f1] at f2
    exact f2 r hr

/-- Does not matter for the protocol: the snapshot is recorded. -/
theorem DiskOk.made {cs : List SrvCfg} {pre : List Entry} {d : Disk} {c : PS} {q : Snap} (h : DiskOk cs pre d c)
    (hq : d.log.start ≤ q.lastIdx) : DiskOk cs pre (d.after (.madeSnp q)) c :=
  ⟨h.term, h.vote, h.start, h.log, h.applied, h.servers, h.conf, h.full, fun x hx => (by cases hx; rw [← h.start]; exact hq),
    .inr rfl⟩

/-- Nor does compacting the log. -/
theorem DiskOk.cut {cs : List SrvCfg} {pre : List Entry} {d : Disk} {c : PS} {q : Snap} {k : Nat} (h : DiskOk cs pre d c)
    (h1 : d.log.start ≤ k) (h2 : k < q.lastIdx) (h3 : q.lastIdx < d.log.next) :
    DiskOk cs (pre ++ d.log.ents.take (k + 1 - d.log.start)) ((d.after (.madeSnp q)).after (.compact k)) c := by
  have hst := h.start
  have hn : d.log.next = d.log.start + d.log.ents.length := rfl
  have htl : (pre ++ d.log.ents.take (k + 1 - d.log.start)).length = k := by
    rw [List.length_append, List.length_take]; omega
  refine ⟨h.term, h.vote, ?_, ?_, h.applied, h.servers, h.conf, .inr ?_, fun x hx => ?_, .inr rfl⟩
  · rw [htl]; rfl
  · show c.log = pre ++ d.log.ents.take (k + 1 - d.log.start) ++ d.log.ents.drop (k + 1 - d.log.start)
    rw [List.append_assoc, List.take_append_drop]; exact h.log
  · show d.log.ents.drop (k + 1 - d.log.start) ≠ []
    intro h0
    have := congrArg List.length h0
    rw [List.length_drop, List.length_nil] at this
    omega
  · cases hx; rw [htl]; omega

/-- The end of a snapshot, up to the point where the process stops. -/
theorem snap_input {cs : List SrvCfg} {H : History} {i : Int} {pre : List Entry} {d : Disk} {s : Srv} {snp : Snap} {ok : Bool}
    (hd : DiskOk cs pre d (abs pre s)) (g : Good cs H i pre s) (hin : InLog s (.snapDone snp ok)) :
    (∃ pre', Good cs H i pre' ((Input.snapDone snp ok).run { s with trace := [] }).2 ∧
      abs pre' ((Input.snapDone snp ok).run { s with trace := [] }).2 = abs pre s ∧
      DiskOk cs pre' (d.afterAll ((Input.snapDone snp ok).run { s with trace := [] }).2.trace) (abs pre s)) ∧
    ∀ es, es <+: ((Input.snapDone snp ok).run { s with trace := [] }).2.trace → es.filter kept = [] ∧
      (∀ r, Eff.reply r ∉ es) ∧ ∃ pre', DiskOk cs pre' (d.afterAll es) (abs pre s) := by
  have g0 : Good cs H i pre { s with trace := [] } :=
    Still.good (s := s) ⟨rfl, rfl, rfl, rfl, rfl, rfl, rfl, rfl, rfl, rfl, rfl, rfl, rfl, fun h => h, rfl, rfl⟩ g
  have hdl : d.log = s.log := by
    have h1 := hd.start
    have h2 := g.start
    have h3 : pre ++ s.log.ents = pre ++ d.log.ents := hd.log
    have h4 := List.append_cancel_left h3
    rcases hl : d.log with ⟨a, b⟩
    rcases hl' : s.log with ⟨a', b'⟩
    rw [hl] at h1 h4
    rw [hl'] at h2 h4
    simp only [] at h1 h2 h4
    rw [h1, h2, h4]
  obtain ⟨pre', a1, a2, a3⟩ := snapDone_ok (s := { s with trace := [] }) (snp := snp) (ok := ok) g0 (by cases ok <;> exact hin)
  have ab : abs pre { s with trace := [] } = abs pre s := rfl
  rw [ab] at a2
  generalize ((Input.snapDone snp ok).run { s with trace := [] }).2 = s' at a1 a2 a3
  simp only [] at a3
  rcases a3 with ⟨t, rfl⟩ | ⟨q, q1, q2, q3, ⟨t, rfl⟩ | ⟨k, k1, k2, t, rfl⟩⟩
  · rw [t]
    refine ⟨⟨_, a1, a2, hd⟩, fun es he => ?_⟩
    rw [List.prefix_nil.1 he]
    exact ⟨rfl, nofun, _, hd⟩
  · rw [← hdl] at q2
    have m1 := hd.made q2
    rw [t]
    refine ⟨⟨_, a1, a2, m1⟩, fun es he => ?_⟩
    cases es with
    | nil => exact ⟨rfl, nofun, _, hd⟩
    | cons e es =>
      obtain ⟨rfl, he2⟩ := List.cons_prefix_cons.1 he
      rw [List.prefix_nil.1 he2]
      exact ⟨rfl, fun r h => (by cases List.mem_singleton.1 h), _, m1⟩
  · rw [← hdl] at q2 q3 k1 a1 a2
    have m1 := hd.made q2
    have m2 := hd.cut k1 k2 q3
    rw [t]
    refine ⟨⟨_, by rw [hdl] at a1; rw [hdl]; exact a1, by rw [hdl] at a2; rw [hdl]; exact a2, m2⟩, fun es he => ?_⟩
    cases es with
    | nil => exact ⟨rfl, nofun, _, hd⟩
    | cons e es =>
      obtain ⟨rfl, he2⟩ := List.cons_prefix_cons.1 he
      cases es with
      | nil => exact ⟨rfl, fun r h => (by cases List.mem_singleton.1 h), _, m1⟩
      | cons e es =>
        obtain ⟨rfl, he3⟩ := List.cons_prefix_cons.1 he2
        rw [List.prefix_nil.1 he3]
        refine ⟨rfl, fun r h => ?_, _, m2⟩
        rcases List.mem_cons.1 h with h | h
        · cases h
        · cases List.mem_singleton.1 h

/-- One step of the cluster is a path of the protocol, and the end of the process if it stops. -/
theorem Linked.step (hC : C.OkS) (hv : VotesOk C.ids ps (hist w)) (h : Linked C w ps) {w' : World} (st : C.SStep w w') :
    ∃ i x es c1 c' pre, i ∈ C.ids ∧ w'.evs = (w.evs ++ es.map fun e => ⟨i, x, e⟩) ∧
      hist w' = hist w ++ (es.filter kept).map (fun e => (i, e)) ∧
      Path C.servers (hist w) i (ps i) (es.filter kept) c1 ∧
      (c' = c1 ∨ ∃ q, q ≤ c1.qc ∧ c' = { c1 with role := .follower, counting := false, qc := q }) ∧
      Linked C w' (upd ps i c') ∧ DiskOk C.servers pre (C.diskAt w.evs i) (ps i) ∧
      (es.filter kept = [] ∨ (∀ e ∈ es, kept e = core e) ∧ High pre es) ∧
      TakesOver (hist w) i pre (C.diskAt w.evs i) x es := by
  cases st with
  | @mk i x es n hi hx hin st =>
    have hm : Member C.servers i := ⟨hC.nodup, hi, fun he => hC.named (he ▸ hi)⟩
    obtain ⟨pre, hn⟩ := h.nodes i hi
    have key : ∀ {c1 c' : PS} (pre' : List Entry), Path C.servers (hist w) i (ps i) (es.filter kept) c1 →
        DiskOk C.servers pre' n.disk c' →
        (∀ s, n.up = some s → Good C.servers (hist w ++ (es.filter kept).map fun e => (i, e)) i pre' s ∧ abs pre' s = c') →
        (n.up = none → c'.role = .follower ∧ c'.counting = false ∧ c'.qc = n.disk.applied) →
        n.disk = (w.node i).disk.afterAll es →
        (∀ q, x = some (.req q) → q.type ≠ .snpReq) →
        (∀ q r, x = some (.req q) → q.type ≠ .clientReq → .reply r ∈ es → RespFor q i r) →
        Linked C ⟨fun k => if k = i then n else w.node k, w.evs ++ es.map fun e => ⟨i, x, e⟩⟩ (upd ps i c') := by
      intro c1 c' pre' hp k1 k2 k3 k4 k6 k5
      refine ⟨?_, ?_, ?_, ?_, ?_, ?_⟩
      · intro k hk
        rw [hist_snoc]
        by_cases hki : k = i
        · subst hki
          rw [upd_self]
          simp only [if_true]
          exact ⟨pre', k1, k2, k3⟩
        · rw [upd_ne hki]
          simp only [if_neg hki]
          obtain ⟨pk, a⟩ := h.nodes k hk
          exact ⟨pk, a.disk, fun s hs => ⟨(a.up s hs).1.mono fun y hy => List.mem_append.2 (.inl hy), (a.up s hs).2⟩, a.down⟩
      · intro k
        rw [diskAt_snoc]
        by_cases hki : k = i
        · subst hki
          simp only [if_true]
          rw [k4, h.disks]
        · simp only [if_neg hki]
          exact h.disks k
      · intro ev hev hkp
        rcases List.mem_append.1 hev with hev | hev
        · exact h.effs ev hev hkp
        · obtain ⟨e, he, rfl⟩ := List.mem_map.1 hev
          exact (hp.effs e (List.mem_filter.2 ⟨he, hkp⟩)).1
      · intro ev hev q hq
        rcases List.mem_append.1 hev with hev | hev
        · exact h.causes ev hev q hq
        · obtain ⟨e, he, rfl⟩ := List.mem_map.1 hev
          exact k6 q hq
      · intro ev hev q r hq hr hc
        rcases List.mem_append.1 hev with hev | hev
        · exact h.replies ev hev q r hq hr hc
        · obtain ⟨e, he, rfl⟩ := List.mem_map.1 hev
          have hr : e = .reply r := hr
          rw [hr] at he
          exact k5 q r hq hc he
      · intro ev hev r hr ht ha
        rcases List.mem_append.1 hev with hev | hev
        · exact h.acks ev hev r hr ht ha
        · obtain ⟨e, he, rfl⟩ := List.mem_map.1 hev
          have hr : e = .reply r := hr
          rw [hr] at he
          obtain ⟨_, a, b, hab⟩ := hp.effs _ (List.mem_filter.2 ⟨he, rfl⟩)
          exact hab.acks ht ha
    have grow : ∀ y ∈ hist w, y ∈ hist w ++ (es.filter kept).map fun e => (i, e) := fun y hy => List.mem_append.2 (.inl hy)
    have hdk := h.disks i
    rcases hw : w.node i with ⟨d, up⟩
    rw [hw] at hn st key hdk hin
    replace hdk : d = C.diskAt w.evs i := hdk
    have hdisk : DiskOk C.servers pre (C.diskAt w.evs i) (ps i) := by rw [← hdk]; exact hn.disk
    -- an input is handled to its end
    have whole : ∀ (s s' : Srv) (y : Input) (r : Except Fault PUnit), up = some s → x = some y →
        y.run { s with trace := [] } = (r, s') → es = s'.trace → n = ⟨d.afterAll s'.trace, some s'⟩ →
        ∃ c1 c', Path C.servers (hist w) i (ps i) (es.filter kept) c1 ∧
          (c' = c1 ∨ ∃ q, q ≤ c1.qc ∧ c' = { c1 with role := .follower, counting := false, qc := q }) ∧
          Linked C ⟨fun k => if k = i then n else w.node k, w.evs ++ es.map fun e => ⟨i, x, e⟩⟩ (upd ps i c') ∧
          (es.filter kept = [] ∨ (∀ e ∈ es, kept e = core e) ∧ High pre es) ∧
          TakesOver (hist w) i pre (C.diskAt w.evs i) x es := by
      intro s s' y r hup hxy hr hes hnn
      subst hup; subst hxy; subst hes
      obtain ⟨g, ab⟩ := hn.up s rfl
      cases hx y rfl with
      | plain hd hns =>
        have ha := h.allowed hC hv hd hns
        have hinp := input_path (d := d) (by rw [ab]; exact hn.disk) g ha
        rw [hr, ab] at hinp
        obtain ⟨g1, p, hw', to, rf⟩ := hinp
        have hk := path_kept p
        have p' := p
        rw [← filter_kept hk] at p'
        refine ⟨abs pre s', abs pre s', p', .inl rfl, ?_, .inr ⟨hk, hw'⟩, by rw [← hdk]; exact to⟩
        exact key pre p' (by rw [hnn]; exact path_disk' p hw' hn.disk)
          (fun y hy => by rw [hnn] at hy; cases hy; exact ⟨g1.mono grow, rfl⟩) (fun hy => by rw [hnn] at hy; cases hy)
          (by rw [hnn]) (fun q hq => hns q (Option.some.inj hq)) fun q r hq => rf q r (Option.some.inj hq)
      | @snapped ev snp ok h1 h2 h3 =>
        have hs := snap_input (d := d) (by rw [ab]; exact hn.disk) g (hin s _ rfl rfl)
        rw [hr, ab] at hs
        obtain ⟨⟨pre', g1, a1, d1⟩, hpx⟩ := hs
        obtain ⟨f1, f2, _⟩ := hpx _ (List.prefix_refl _)
        have p' : Path C.servers (hist w) i (ps i) (s'.trace.filter kept) (ps i) := by rw [f1]; exact .nil _
        refine ⟨ps i, ps i, p', .inl rfl, ?_, .inl f1, fun m hm => by cases hm⟩
        exact key pre' p' (by rw [hnn]; exact d1) (fun y hy => by rw [hnn] at hy; cases hy; exact ⟨g1.mono grow, a1⟩)
          (fun hy => by rw [hnn] at hy; cases hy) (by rw [hnn]) (fun q hq => by cases hq) fun q r hq => by cases hq
    cases st with
    | @run _ s s' x hr =>
      obtain ⟨c1, c', k1, k2, k3, k4, k5⟩ := whole s s' x _ rfl rfl hr rfl rfl
      exact ⟨i, some x, s'.trace, c1, c', pre, hi, rfl, hist_snoc, k1, k2, k3, hdisk, k4, k5⟩
    | @survive _ s s' x hr =>
      obtain ⟨c1, c', k1, k2, k3, k4, k5⟩ := whole s s' x _ rfl rfl hr rfl rfl
      exact ⟨i, some x, s'.trace, c1, c', pre, hi, rfl, hist_snoc, k1, k2, k3, hdisk, k4, k5⟩
    | @crash _ s x es hpre =>
      obtain ⟨g, ab⟩ := hn.up s rfl
      cases hx x rfl with
      | plain hd hns =>
        have ha := h.allowed hC hv hd hns
        have hinp := input_path (d := d) (by rw [ab]; exact hn.disk) g ha
        rw [ab] at hinp
        obtain ⟨g1, p, hw', to, rf⟩ := hinp
        have hk : ∀ e ∈ es, kept e = core e := fun e he => path_kept p e (hpre.subset he)
        have hwe : High pre es := fun k x hm => hw' k x (hpre.subset hm)
        obtain ⟨c1, p1⟩ := p.take (hpre.filter core)
        have hd1 := path_disk' p1 hwe hn.disk
        have p1' := p1
        rw [← filter_kept hk] at p1'
        refine ⟨i, some x, es, c1, { c1 with role := .follower, counting := false, qc := (d.afterAll es).applied }, pre, hi, rfl,
          hist_snoc, p1', .inr ⟨_, hd1.applied, rfl⟩, ?_, hdisk, .inr ⟨hk, hwe⟩, ?_⟩
        · exact key pre p1' ⟨hd1.term, hd1.vote, hd1.start, hd1.log, Nat.le_refl _, hd1.servers, hd1.conf, hd1.full, hd1.snap, hd1.has⟩
            (fun y hy => by cases hy) (fun _ => ⟨rfl, rfl, rfl⟩) rfl (fun q hq => hns q (Option.some.inj hq))
            fun q r hq hc hr => rf q r (Option.some.inj hq) hc (hpre.subset hr)
        · rw [← hdk]
          intro m hm hc es1 n es2 he
          obtain ⟨rest, hrest⟩ := hpre
          exact to m hm hc es1 n (es2 ++ rest) (by rw [← hrest, he]; simp)
      | @snapped ev snp ok h1 h2 h3 =>
        have hs := snap_input (d := d) (by rw [ab]; exact hn.disk) g (hin s _ rfl rfl)
        rw [ab] at hs
        obtain ⟨f1, f2, pre', d1⟩ := hs.2 es hpre
        have p' : Path C.servers (hist w) i (ps i) (es.filter kept) (ps i) := by rw [f1]; exact .nil _
        refine ⟨i, _, es, ps i, { ps i with role := .follower, counting := false, qc := (d.afterAll es).applied }, pre, hi, rfl,
          hist_snoc, p', .inr ⟨_, d1.applied, rfl⟩, ?_, hdisk, .inl f1, fun m hm => by cases hm⟩
        exact key pre' p' ⟨d1.term, d1.vote, d1.start, d1.log, Nat.le_refl _, d1.servers, d1.conf, d1.full, d1.snap, d1.has⟩
          (fun y hy => by cases hy) (fun _ => ⟨rfl, rfl, rfl⟩) rfl (fun q hq => by cases hq) fun q r hq => by cases hq
    | boot =>
      obtain ⟨r1, r2, r3⟩ := hn.down rfl
      refine ⟨i, none, [], ps i, ps i, pre, hi, rfl, hist_snoc, .nil _, .inl rfl, ?_, hdisk, .inl rfl, fun m hm => by cases hm⟩
      refine key pre (.nil _) hn.disk (fun y hy => ?_) (fun hy => by cases hy) rfl (fun q hq => by cases hq) (fun q r hq => by cases hq)
      cases hy
      exact ⟨boot_good hn.disk hC.nodup (hC.kept i), boot_abs hn.disk r1 r2 r3⟩

theorem Linked.init (hC : C.OkS) : Linked C C.init fun _ => {} := by
  have e0 : ∀ ev, ev ∉ C.init.evs := fun ev h => by cases h
  refine ⟨fun i _ => ⟨[], ⟨rfl, rfl, rfl, rfl, Nat.le_refl _, hC.config i, ?_, .inl rfl, ?_, .inl rfl⟩, ?_, fun _ => ⟨rfl, rfl, rfl⟩⟩,
    fun i => rfl, fun ev h => absurd h (e0 ev), fun ev h => absurd h (e0 ev), fun ev h => absurd h (e0 ev),
    fun ev h => absurd h (e0 ev)⟩
  · intro e he
    cases he
  · intro x hx
    cases hx
  · intro s hs
    cases hs

/-- Everything that is known about a reachable state. -/
structure Inv (C : Cluster) (w : World) (ps : Int → PS) (g : Ghost) : Prop where
  linked : Linked C w ps
  safe : SafeOk C.ids ps (hist w) g

theorem Inv.init (hC : C.OkS) : Inv C C.init (fun _ => {}) {} := ⟨.init hC, SafeOk.init _ _ fun _ => rfl⟩

theorem Inv.step {g : Ghost} (hC : C.OkS) (h : Inv C w ps g) {w' : World} (st : C.SStep w w') :
    ∃ ps' g', Ghost.Le (hist w) g g' ∧ (∀ x ∈ hist w, x ∈ hist w') ∧ Inv C w' ps' g' := by
  obtain ⟨i, x, es, c1, c', pre, hi, he, hh, p, hc, hl, _⟩ := h.linked.step hC h.safe.logs.votes st
  obtain ⟨g', hle, hs⟩ := p.safe hC.named hi (fun _ h => h) rfl h.safe
  refine ⟨upd ps i c', g', hle, fun y hy => by rw [hh]; exact List.mem_append.2 (.inl hy), hl, ?_⟩
  rw [hh]
  rcases hc with rfl | ⟨q, hq, rfl⟩
  · exact hs
  · have := hs.quiet (i := i) (c := { c1 with role := .follower, counting := false, qc := q })
      (by rw [upd_self]; exact .crash hq)
    rw [upd_upd] at this
    exact this

theorem Inv.run {g : Ghost} (hC : C.OkS) (h : Inv C w ps g) {w' : World} (hr : C.SRun w w') :
    ∃ ps' g', Ghost.Le (hist w) g g' ∧ (∀ x ∈ hist w, x ∈ hist w') ∧ Inv C w' ps' g' := by
  induction hr with
  | refl => exact ⟨ps, g, Ghost.Le.refl _ _, fun _ h => h, h⟩
  | step _ st ih =>
    obtain ⟨p1, g1, l1, s1, i1⟩ := ih
    obtain ⟨p2, g2, l2, s2, i2⟩ := i1.step hC st
    exact ⟨p2, g2, l1.trans s1 l2, fun x hx => s2 x (s1 x hx), i2⟩

theorem reach_inv (hC : C.OkS) (h : C.SReach w) : ∃ ps g, Inv C w ps g := by
  obtain ⟨ps, g, _, _, h⟩ := (Inv.init hC).run hC h
  exact ⟨ps, g, h⟩

end Cs.Raft.Cut
