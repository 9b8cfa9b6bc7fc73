import Verif.Cluster.Inv

/-!
# When the commit index can be trusted
-/

namespace Cs.Raft
open Cs

variable {S : List Int} {ps : Int → PS} {H H' : History} {g g' : Ghost} {i : Int} {c : PS} {e : Eff}

/-- A majority confirmed to the leader of term `t` that it has the entries up to `n`, the last of which the leader made
itself. -/
def Committed (S : List Int) (H : History) (g : Ghost) (t n : Nat) : Prop :=
  Own g t n ∧ ∃ V, Quorum S V ∧ ∀ v ∈ V, Holds H g v t n

/-- The first `n` entries of the log are committed, by a leader of a term up to `T`. -/
def Done (S : List Int) (H : History) (g : Ghost) (T : Nat) (l : List Entry) (n : Nat) : Prop :=
  n = 0 ∨ ∃ t n', t ≤ T ∧ n ≤ n' ∧ Committed S H g t n' ∧ (g.llog t).take n <+: l

structure CommOk (S : List Int) (ps : Int → PS) (H : History) (g : Ghost) : Prop where
  srv : ∀ i, Done S H g (ps i).term (ps i).log (ps i).qc
  sent : ∀ {i m}, (i, .send m) ∈ H → m.type = .appendReq → Done S H g m.term (g.llog m.term) m.commitIdx
  applied : ∀ {i k x}, (i, .commit k x) ∈ H → ∃ t n, 0 < k ∧ k ≤ n ∧ Committed S H g t n ∧ (g.llog t)[k - 1]? = some x

/-- An advance of the commit index that is safe. -/
def Proper (S : List Int) (H : History) (i : Int) (c : PS) (n : Nat) : Prop :=
  ((i, .lead c.term) ∈ H ∧ 0 < n ∧ (c.log[n - 1]?).map Entry.term = some c.term ∧ ∃ V, Quorum S V ∧ ∀ v ∈ V, v = i ∨
    ∃ r, (v, .reply r) ∈ H ∧ r.type = .appendResp ∧ r.accepted = true ∧ r.term = c.term ∧ n < r.nextIdx) ∨
  ∃ m, Sent H i .appendReq m ∧ m.term = c.term ∧ Agree c.log m m.entries.length ∧ n ≤ m.commitIdx ∧
    n ≤ m.lastIdx + m.entries.length

theorem Own.length {t n : Nat} (h : Own g t n) : n ≤ (g.llog t).length := by
  obtain ⟨h0, h1⟩ := h
  obtain ⟨x, hx, _⟩ := Option.map_eq_some_iff.1 h1
  have := getElem?_lt hx
  omega

theorem Holds.mono {v : Int} {t n : Nat} (hH : ∀ x ∈ H, x ∈ H') (hl : ∀ t, g.llog t <+: g'.llog t)
    (h : Holds H g v t n) : Holds H' g' v t n := by
  rcases h with ⟨r, h1, h2⟩ | ⟨h1, h2⟩
  · exact .inl ⟨r, hH _ h1, h2⟩
  · exact .inr ⟨hH _ h1, Nat.le_trans h2 (hl t).length_le⟩

theorem Committed.mono {t n : Nat} (hH : ∀ x ∈ H, x ∈ H') (hl : ∀ t, g.llog t <+: g'.llog t)
    (h : Committed S H g t n) : Committed S H' g' t n := by
  obtain ⟨ho, V, hq, hV⟩ := h
  refine ⟨⟨ho.1, ?_⟩, V, hq, fun v hv => (hV v hv).mono hH hl⟩
  have := ho.length
  have h0 := ho.1
  rw [get_of_prefix' (hl t) (by omega)]
  exact ho.2

theorem Done.mono {T T' n : Nat} {l l' : List Entry} (hH : ∀ x ∈ H, x ∈ H') (hl : ∀ t, g.llog t <+: g'.llog t)
    (hT : T ≤ T') (hp : l <+: l') (h : Done S H g T l n) : Done S H' g' T' l' n := by
  rcases h with h | ⟨t, n', h1, h2, h3, h4⟩
  · exact .inl h
  · refine .inr ⟨t, n', by omega, h2, h3.mono hH hl, ?_⟩
    rw [← take_of_prefix (hl t) (Nat.le_trans h2 h3.1.length)]
    exact h4.trans hp

theorem Done.less {T n k : Nat} {l : List Entry} (hk : k ≤ n) (h : Done S H g T l n) : Done S H g T l k := by
  rcases h with h | ⟨t, n', h1, h2, h3, h4⟩
  · exact .inl (by omega)
  · refine .inr ⟨t, n', h1, by omega, h3, ?_⟩
    have : (g.llog t).take k <+: (g.llog t).take n := List.take_prefix_take_left hk
    exact this.trans h4

/-- What is committed is in the log of every leader of a later term. -/
theorem SafeOk.has (h : SafeOk S ps H g) {t n u : Nat} (hc : Committed S H g t n) (htu : t ≤ u) (hl : Led H u) :
    (g.llog t).take n <+: g.llog u := by
  obtain ⟨ho, V, hq, hV⟩ := hc
  rcases Nat.eq_or_lt_of_le htu with rfl | hlt
  · exact List.take_prefix _ _
  · obtain ⟨j, hj⟩ := hl
    exact (h.complete hq hV ho u hlt ⟨j, hj⟩).trans (h.logs.ghost.elect hj).2.1

theorem Committed.led (h : SafeOk S ps H g) {t n : Nat} (hc : Committed S H g t n) : Led H t := by
  by_cases hl : Led H t
  · exact hl
  · have := h.logs.ghost.none hl
    have h1 := hc.1.length
    have h0 := hc.1.1
    rw [this] at h1
    simp at h1
    omega

theorem get_take_prefix {l m : List Entry} {n k : Nat} (hp : l.take n <+: m) (hn : n ≤ l.length) (hk : k < n) :
    m[k]? = l[k]? := by
  rw [get_of_prefix' hp (by rw [List.length_take]; omega), List.getElem?_take, if_pos hk]

/-- Entries applied at the same index are the same. -/
theorem CommOk.agree (h : SafeOk S ps H g) (hc : CommOk S ps H g) {i j : Int} {k : Nat} {x y : Entry}
    (hx : (i, .commit k x) ∈ H) (hy : (j, .commit k y) ∈ H) : x = y := by
  obtain ⟨t, n, h0, h1, h2, h3⟩ := hc.applied hx
  obtain ⟨u, m, _, k1, k2, k3⟩ := hc.applied hy
  have key : ∀ {t u n m : Nat} {x y : Entry}, t ≤ u → k ≤ n → Committed S H g t n → Committed S H g u m →
      (g.llog t)[k - 1]? = some x → (g.llog u)[k - 1]? = some y → x = y := by
    intro t u n m x y htu hk a b c d
    have := get_take_prefix (k := k - 1) (h.has a htu (b.led h)) a.1.length (by omega)
    rw [c, d] at this
    exact (Option.some.inj this).symm
  rcases Nat.le_total t u with htu | htu
  · exact key htu h1 h2 k2 h3 k3
  · exact (key htu k1 k2 h2 k3 h3).symm

theorem take_eq_of_prefix {l m : List Entry} {n : Nat} (h : l.take n <+: m) (hn : n ≤ l.length) : l.take n = m.take n := by
  have := List.prefix_iff_eq_take.1 h
  rw [List.length_take, Nat.min_eq_left hn] at this
  exact this

/-- A proper advance. -/
theorem Proper.done (h : SafeOk S ps H g) (hc : CommOk S ps H g) {n : Nat} (hp : Proper S H i (ps i) n) :
    Done S H g (ps i).term (ps i).log n := by
  rcases hp with ⟨h1, h0, h2, V, hq, hV⟩ | ⟨m, h1, h2, h3, h4, h5⟩
  · obtain ⟨x, hx, hxt⟩ := Option.map_eq_some_iff.1 h2
    have hlin := (h.logs.srv i).lin (n - 1) x hx
    rw [show n - 1 + 1 = n by omega, hxt] at hlin
    have hlen := getElem?_lt hx
    have hn : n ≤ (g.llog (ps i).term).length := by
      have := hlin.length_le
      rw [List.length_take] at this
      omega
    have heq := take_eq_of_prefix hlin (by omega)
    refine .inr ⟨(ps i).term, n, Nat.le_refl _, Nat.le_refl _, ⟨⟨h0, ?_⟩, V, hq, fun v hv => ?_⟩, ?_⟩
    · rw [get_take_prefix hlin (by omega) (by omega)]; exact h2
    · rcases hV v hv with rfl | hr
      · exact .inr ⟨h1, hn⟩
      · exact .inl hr
    · rw [← heq]; exact List.take_prefix _ _
  · obtain ⟨⟨j, hj⟩, _, hty⟩ := h1
    rcases hc.sent hj hty with h0 | ⟨t, n', k1, k2, k3, k4⟩
    · exact .inl (by omega)
    · have hsl := h.logs.ghost.slices hj hty
      have heq := h3.eq (h.logs.srv i).lin (h.logs.ghost.linL _) hsl (Nat.le_refl _)
      have hlt := k3.1.length
      refine .inr ⟨t, n', by omega, by omega, k3, ?_⟩
      have h6 : (g.llog t).take n <+: g.llog m.term := (List.take_prefix_take_left h4).trans k4
      rw [take_eq_of_prefix h6 (by omega)]
      have h7 : (g.llog m.term).take n <+: (g.llog m.term).take (m.lastIdx + m.entries.length) :=
        List.take_prefix_take_left h5
      rw [← heq] at h7
      exact h7.trans (List.take_prefix _ _)

theorem CommOk.act (h : SafeOk S ps H g) (hc : CommOk S ps H g) (hle : Ghost.Le H g g') (ha : Act S H i (ps i) e c)
    (hp : ∀ n, e = .advance n → Proper S H i (ps i) n) : CommOk S (upd ps i c) (H ++ [(i, e)]) g' := by
  have hH : ∀ x ∈ H, x ∈ H ++ [(i, e)] := fun x hx => mem_snoc.2 (.inl hx)
  have hi := hc.srv i
  have own : Done S H g c.term c.log c.qc := by
    cases ha with
    | raise h1 => exact hi.mono (fun _ h => h) (fun _ => List.prefix_refl _) (Nat.le_of_lt h1) (List.prefix_refl _)
    | self => exact hi
    | grant => exact hi
    | ask => exact hi
    | lead => exact hi
    | appendOwn => exact hi.mono (fun _ h => h) (fun _ => List.prefix_refl _) (Nat.le_refl _) (List.prefix_append _ _)
    | append => exact hi.mono (fun _ h => h) (fun _ => List.prefix_refl _) (Nat.le_refl _) (List.prefix_append _ _)
    | @write m k e x hs hmt hr hag he hx hxe =>
      rcases hi with h0 | ⟨t, n', h1, h2, h3, h4⟩
      · exact .inl h0
      · refine .inr ⟨t, n', h1, h2, h3, ?_⟩
        have hlt := h3.1.length
        show (g.llog t).take (ps i).qc <+: (ps i).log.take (m.lastIdx + k) ++ [e]
        by_cases hq : (ps i).qc ≤ m.lastIdx + k
        · rw [take_eq_of_prefix h4 (by omega)]
          exact (List.take_prefix_take_left hq).trans (List.prefix_append _ _)
        · exfalso
          have hled : Led H m.term := by
            obtain ⟨⟨j, hj⟩, _, hty⟩ := hs
            exact ⟨j, h.logs.votes.replicated hj hty⟩
          have e1 := (h.logs.taken hs hag he).2
          have e2 := get_take_prefix (k := m.lastIdx + k) h4 (by omega) (by omega)
          have e3 := get_take_prefix (k := m.lastIdx + k) (h.has h3 (by omega) hled) hlt (by omega)
          rw [e1, ← e2, hx] at e3
          exact hxe (congrArg Entry.term (Option.some.inj e3)).symm
    | replicate => exact hi
    | voted => exact hi
    | stored => exact hi
    | advance => exact (hp _ rfl).done h hc
    | follow => exact (hp _ rfl).done h hc
    | apply => exact hi
    | other => exact hi
  refine ⟨?_, ?_, ?_⟩
  · refine upd_all (P := fun k c => Done S (H ++ [(i, e)]) g' c.term c.log c.qc) (fun k hk => ?_) ?_
    · exact (hc.srv k).mono hH hle.llog (Nat.le_refl _) (List.prefix_refl _)
    · exact own.mono hH hle.llog (Nat.le_refl _) (List.prefix_refl _)
  · intro k m hm hty
    rcases mem_snoc.1 hm with hm | hm
    · exact (hc.sent hm hty).mono hH hle.llog (Nat.le_refl _) (hle.llog _)
    · cases hm
      cases ha with
      | ask h1 => rw [hty] at h1; cases h1
      | replicate h1 h2 h3 h4 h5 h6 h7 h8 h9 =>
        rw [h9, h4]
        refine hi.mono hH hle.llog (Nat.le_refl _) ?_
        rw [(h.logs.srv i).lead h5]
        exact hle.llog _
      | other h1 => have h1 : m.type = .prevoteReq := h1; rw [hty] at h1; cases h1
  · intro j k x hm
    rcases mem_snoc.1 hm with hm | hm
    · obtain ⟨t, n, h0, h1, h2, h3⟩ := hc.applied hm
      exact ⟨t, n, h0, h1, h2.mono hH hle.llog, get_of_prefix (hle.llog t) h3⟩
    · cases hm
      cases ha with
      | @apply k x hk hx =>
        rcases hi with h0 | ⟨t, n', h1, h2, h3, h4⟩
        · omega
        · have hlt := h3.1.length
          refine ⟨t, n', by omega, by omega, h3.mono hH hle.llog, get_of_prefix (hle.llog t) ?_⟩
          rw [Nat.add_sub_cancel, ← get_take_prefix (k := k) h4 (by omega) hk]
          exact hx
      | other h1 => exact h1.elim

theorem CommOk.quiet (hc : CommOk S ps H g) (ha : Quiet H i (ps i) c) : CommOk S (upd ps i c) H g := by
  obtain ⟨q1, q2, q3, q4, q5, q6⟩ := ha.frame
  refine ⟨?_, hc.sent, hc.applied⟩
  refine upd_all (P := fun k c => Done S H g c.term c.log c.qc) (fun k hk => hc.srv k) ?_
  rw [q1, q3]
  exact (hc.srv i).less q6

theorem CommOk.init (h : ∀ i, ps i = {}) : CommOk S ps [] {} :=
  ⟨fun i => .inl (by rw [h i]), fun h => (by cases h), fun h => (by cases h)⟩

theorem Path.comm {cs : List SrvCfg} {c c' : PS} {es : List Eff} (hp : Path cs H i c es c') (hS : -1 ∉ cs.map SrvCfg.id)
    (hi : i ∈ cs.map SrvCfg.id) : ∀ {ps : Int → PS} {H' : History} {g : Ghost}, (∀ x ∈ H, x ∈ H') → ps i = c →
    SafeOk (cs.map SrvCfg.id) ps H' g → CommOk (cs.map SrvCfg.id) ps H' g →
    (∀ es1 n es2, es = es1 ++ .advance n :: es2 → ∀ a, Path cs H i c es1 a →
      Proper (cs.map SrvCfg.id) (H' ++ es1.map fun e => (i, e)) i a n) → ∃ g', Ghost.Le H' g g' ∧
      SafeOk (cs.map SrvCfg.id) (upd ps i c') (H' ++ es.map fun e => (i, e)) g' ∧
      CommOk (cs.map SrvCfg.id) (upd ps i c') (H' ++ es.map fun e => (i, e)) g' := by
  induction hp with
  | nil c =>
    intro ps H' g hH hc h hk _
    rw [← hc, upd_same, List.map_nil, List.append_nil]
    exact ⟨g, Ghost.Le.refl _ _, h, hk⟩
  | @act c c' c'' e es ha he hp ih =>
    intro ps H' g hH hc h hk hpr
    have ha' := ha.mono hH
    rw [← hc] at ha'
    obtain ⟨g1, l1, s1⟩ := h.act hS hi ha'
    have k1 := hk.act h l1 ha' (fun n hn => by
      have := hpr [] n es (by rw [hn]; rfl) c (.nil c)
      rw [List.map_nil, List.append_nil] at this
      rw [hc]; exact this)
    obtain ⟨g2, l2, s2, k2⟩ := ih (fun x hx => mem_snoc.2 (.inl (hH x hx))) (upd_self _ _ _) s1 k1 (by
      intro es1 n es2 h1 a h2
      have := hpr (e :: es1) n es2 (by rw [h1]; rfl) a (.act ha he h2)
      rw [List.append_assoc]
      exact this)
    rw [upd_upd, List.append_assoc] at s2 k2
    exact ⟨g2, l1.trans (fun x hx => mem_snoc.2 (.inl hx)) l2, s2, k2⟩
  | quiet hq he hp ih =>
    intro ps H' g hH hc h hk hpr
    have hq' := hq.mono hH
    rw [← hc] at hq'
    obtain ⟨g2, l2, s2, k2⟩ := ih hH (upd_self _ _ _) (h.quiet hq') (hk.quiet hq') (by
      intro es1 n es2 h1 a h2
      exact hpr es1 n es2 h1 a (.quiet hq he h2))
    rw [upd_upd] at s2 k2
    exact ⟨g2, l2, s2, k2⟩

/-! ## The cluster -/

variable {C : Cluster} {w w' : World}

/-- Both together. -/
structure Careful (C : Cluster) (E : List Ev) : Prop where
  lead : C.CarefulLeaders E
  follow : CarefulFollowers E

theorem Careful.prefix {E E' : List Ev} (h : Careful C (E ++ E')) : Careful C E := by
  refine ⟨?_, fun ev he => h.follow ev (List.mem_append.2 (.inl he))⟩
  intro E1 ev E2 n he hn
  exact h.lead E1 ev (E2 ++ E') n (by rw [he, List.append_assoc]; rfl) hn

theorem Careful.either {E : List Ev} (h : Careful C E) (E1 : List Ev) (ev : Ev) (E2 : List Ev) (n : Nat)
    (hE : E = E1 ++ ev :: E2) (he : ev.eff = .advance n) :
    (∃ m, ev.cause = some (.req m) ∧ m.type = .appendReq ∧ n ≤ m.lastIdx + m.entries.length) ∨ C.Backed E1 ev.node n := by
  by_cases hf : ∃ m, ev.Following m
  · obtain ⟨m, hm⟩ := hf
    exact .inl ⟨m, hm.1, hm.2, h.follow ev (by rw [hE]; simp) n m he hm⟩
  · exact .inr (h.lead E1 ev E2 n hE he fun m hm => hf ⟨m, hm⟩)

theorem confirmed_hist {v : Int} {t n : Nat} (h : Confirmed w.evs v t n) :
    ∃ r, (v, .reply r) ∈ w.hist ∧ r.type = .appendResp ∧ r.accepted = true ∧ r.term = t ∧ n < r.nextIdx := by
  obtain ⟨ev, h1, h2, r, h3, h4⟩ := h
  exact ⟨r, mem_hist.2 ⟨ev, h1, h2, h3⟩, h4⟩

theorem CommOk.step (hC : C.Ok) (h : Inv C w ps g) (hk : CommOk C.ids ps w.hist g) (st : C.Step w w')
    (hcare : Careful C w'.evs) : ∃ ps' g', Inv C w' ps' g' ∧ CommOk C.ids ps' w'.hist g' := by
  obtain ⟨i, x, es, c1, c', hi, he, hh, p, hc, hl, hto⟩ := h.linked.step hC h.safe.logs.votes st
  have hdisk := h.linked.disks i
  have hdok := (h.linked.nodes i hi).disk
  obtain ⟨g', hle, hs, hk'⟩ := p.comm hC.named hi (fun _ h => h) rfl h.safe hk (by
    intro es1 n es2 h1 a hpa
    have hda := hpa.disk hdok
    rw [hdisk] at hda
    have hd1 : C.diskAt (w.evs ++ es1.map fun e => (⟨i, x, e⟩ : Ev)) i = (C.diskAt w.evs i).afterAll es1 := by
      rw [diskAt_snoc, if_pos rfl]
    have hhist : World.hist ⟨w.node, w.evs ++ es1.map fun e => ⟨i, x, e⟩⟩ = w.hist ++ es1.map fun e => (i, e) := hist_snoc
    rcases hcare.either (w.evs ++ es1.map fun e => ⟨i, x, e⟩) ⟨i, x, .advance n⟩ (es2.map fun e => ⟨i, x, e⟩) n
      (by rw [he, h1]; simp) rfl with ⟨m, m1, m2, m3⟩ | ⟨hlead, hent, V, hq, hV⟩
    · obtain ⟨t1, t2, t3, t4⟩ := hto m m1 (by rw [m2]; nofun) es1 n es2 h1
      rw [hda.term] at t3
      rw [hda.log] at t4
      exact .inr ⟨m, t2.mono fun y hy => List.mem_append.2 (.inl hy), t3, t4, Nat.le_of_eq t1, m3⟩
    · simp only [] at hlead hent hV
      rw [hd1] at hlead hent hV
      rw [hda.term] at hlead hent hV
      rw [hda.log] at hent
      have h0 : 0 < n := by
        rcases Nat.eq_zero_or_pos n with h0 | h0
        · rw [h0] at hent; cases hent
        · exact h0
      have e0 : (⟨1, a.log⟩ : Log).get? n = a.log[n - 1]? := get?_one rfl (by omega)
      rw [e0] at hent
      rw [← hhist]
      refine .inl ⟨mem_hist.2 hlead, h0, hent, V, hq, fun v hv => ?_⟩
      rcases hV v hv with h2 | h2
      · exact .inl h2
      · exact .inr (confirmed_hist (w := ⟨w.node, _⟩) h2))
  refine ⟨upd ps i c', g', ⟨hl, ?_⟩, ?_⟩
  · rw [hh]
    rcases hc with rfl | ⟨q, hq, rfl⟩
    · exact hs
    · have := hs.quiet (i := i) (c := { c1 with role := .follower, counting := false, qc := q })
        (by rw [upd_self]; exact .crash hq)
      rw [upd_upd] at this
      exact this
  · rw [hh]
    rcases hc with rfl | ⟨q, hq, rfl⟩
    · exact hk'
    · have := hk'.quiet (i := i) (c := { c1 with role := .follower, counting := false, qc := q })
        (by rw [upd_self]; exact .crash hq)
      rw [upd_upd] at this
      exact this

theorem step_evs (st : C.Step w w') : ∃ E, w'.evs = w.evs ++ E := by
  cases st with
  | mk => exact ⟨_, rfl⟩

theorem CommOk.reach (hC : C.Ok) (h : C.Reach w) (hcare : Careful C w.evs) :
    ∃ ps g, Inv C w ps g ∧ CommOk C.ids ps w.hist g := by
  induction h with
  | refl => exact ⟨_, _, Inv.init hC, CommOk.init fun _ => rfl⟩
  | step _ st ih =>
    obtain ⟨E, he⟩ := step_evs st
    obtain ⟨ps, g, h1, h2⟩ := ih (Careful.prefix (he ▸ hcare))
    exact h2.step hC h1 st hcare

end Cs.Raft
