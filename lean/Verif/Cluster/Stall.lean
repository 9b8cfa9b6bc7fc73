import Verif.Raft.Few
import Verif.Raft.Mute
import Verif.Raft.PropsLog
import Verif.Cluster.Told
import Verif.Cluster.Progress

/-!
# Leaders that send no entries

If the setting for the number of entries in an append request is 0, leaders send empty append requests only. Then every entry stays
with the server that made it, members confirm nothing but the empty log, and in a cluster of two or more nothing is committed.
-/

namespace Cs.Raft
open Cs

/-- A confirmation of nothing. -/
def bare (r : Resp) : Bool := decide (r.nextIdx ≤ 1)

/-! ## One server -/

section
variable {cs : List SrvCfg} {H K : History} {i : Int}

/-- Append requests are empty, tell no commit index, and their previous entry was made by the sender. -/
def Blank (K : History) (i : Int) (m : Req) : Prop :=
  m.type = .appendReq → m.entries = [] ∧ m.commitIdx = 0 ∧ (m.lastIdx = 0 ∨ (i, .lead m.lastTerm) ∈ K)

/-- The server has no entries but its own, and has committed nothing. -/
structure Bare (K : History) (i : Int) (c : PS) : Prop where
  lead : c.role = .leader → (i, .lead c.term) ∈ K
  own : ∀ e ∈ c.log, (i, .lead e.term) ∈ K
  qc : c.qc = 0

theorem Bare.more {c : PS} {e : Eff} (h : Bare K i c) : Bare (K ++ [(i, e)]) i c :=
  ⟨fun hr => List.mem_append_left _ (h.lead hr), fun x hx => List.mem_append_left _ (h.own x hx), h.qc⟩

/-- An effect of such a server. -/
theorem Bare.act {c c' : PS} {e : Eff} (h : Bare K i c) (h2 : 2 ≤ cs.length) (hacks : ∀ {v r}, (v, .reply r) ∈ H → r.type = .appendResp →
    r.accepted = true → r.nextIdx ≤ 1) (hsent : ∀ {m}, Sent H i .appendReq m → m.entries = [] ∧ m.commitIdx = 0)
    (he : ∀ m, e = .send m → m.type = .appendReq → m.entries = []) (ha : Act (cs.map SrvCfg.id) H i c e c') :
    Bare (K ++ [(i, e)]) i c' ∧ (∀ m, e = .send m → Blank (K ++ [(i, e)]) i m) ∧ (∀ n, e ≠ .advance n) ∧ ∀ n x, e ≠ .commit n x := by
  have hm := h.more (e := e)
  cases ha with
  | raise h1 h3 => exact ⟨⟨fun hr => absurd hr h3, hm.own, hm.qc⟩, by nofun, by nofun, by nofun⟩
  | self h1 _ => exact ⟨⟨hm.lead, hm.own, hm.qc⟩, by nofun, by nofun, by nofun⟩
  | grant => exact ⟨⟨hm.lead, hm.own, hm.qc⟩, by nofun, by nofun, by nofun⟩
  | ask h1 => exact ⟨hm, fun m hmm hty => (by cases hmm; rw [h1] at hty; cases hty), by nofun, by nofun⟩
  | lead => exact ⟨⟨fun _ => List.mem_append_right _ (List.mem_singleton.2 rfl), hm.own, hm.qc⟩, by nofun, by nofun, by nofun⟩
  | @appendOwn x h1 h3 =>
    refine ⟨⟨hm.lead, fun y hy => ?_, hm.qc⟩, by nofun, by nofun, by nofun⟩
    rcases mem_snoc.1 hy with hy | hy
    · exact hm.own y hy
    · rw [hy, h3]; exact hm.lead h1
  | append h1 _ _ _ h3 _ => rw [(hsent h1).1] at h3; cases h3
  | write h1 _ _ _ h3 _ _ => rw [(hsent h1).1] at h3; cases h3
  | @replicate m h1 _ _ _ h3 h4 h5 h6 h7 =>
    refine ⟨hm, fun m' hmm hty => ?_, by nofun, by nofun⟩
    cases hmm
    refine ⟨he m rfl h1, h7.trans h.qc, ?_⟩
    rcases h5 with h5 | h5
    · exact .inl h5
    · obtain ⟨x, hx, hxt⟩ := Option.map_eq_some_iff.1 h5
      rw [← hxt]
      exact .inr (hm.own x (List.mem_of_getElem? hx))
  | voted => exact ⟨hm, by nofun, by nofun, by nofun⟩
  | stored => exact ⟨hm, by nofun, by nofun, by nofun⟩
  | @advance n V h1 h3 h4 h5 h6 =>
    exfalso
    have hl : 2 ≤ V.length := by rw [List.length_map] at h5; omega
    have : ∃ v ∈ V, v ≠ i := by
      match V, h3, hl with
      | a :: b :: _, h3, _ =>
        have hab : a ≠ b := fun h => (List.nodup_cons.1 h3).1 (h ▸ List.mem_cons_self)
        by_cases hai : a = i
        · exact ⟨b, by simp, fun hb => hab (hai.trans hb.symm)⟩
        · exact ⟨a, by simp, hai⟩
    obtain ⟨v, hv, hvi⟩ := this
    rcases h6 v hv with h | ⟨r, r1, r2, r3, r4⟩
    · exact hvi h.1
    · have := hacks r1 r2 r3
      rw [h.qc] at h1
      omega
  | follow h1 h3 => rw [(hsent h3).2] at h1; omega
  | apply h1 => rw [h.qc] at h1; omega
  | other h1 =>
    refine ⟨hm, ?_, ?_, ?_⟩
    · intro m hmm hty
      subst hmm
      have : m.type = .prevoteReq := h1
      rw [this] at hty; cases hty
    · intro n hn; subst hn; exact h1
    · intro n x hn; subst hn; exact h1

/-- Effects of such a server. -/
theorem Bare.path {c c' : PS} {es : List Eff} (hp : Path cs H i c es c') : ∀ {K : History}, Bare K i c → 2 ≤ cs.length →
    (∀ {v r}, (v, .reply r) ∈ H → r.type = .appendResp → r.accepted = true → r.nextIdx ≤ 1) →
    (∀ {m}, Sent H i .appendReq m → m.entries = [] ∧ m.commitIdx = 0) →
    (∀ m, .send m ∈ es → m.type = .appendReq → m.entries = []) →
    Bare (K ++ es.map fun e => (i, e)) i c' ∧ (∀ m, .send m ∈ es → Blank (K ++ es.map fun e => (i, e)) i m) ∧
      (∀ n, .advance n ∉ es) ∧ ∀ n x, .commit n x ∉ es := by
  induction hp with
  | nil c => intro K h _ _ _ _; rw [List.map_nil, List.append_nil]; exact ⟨h, by nofun, by nofun, by nofun⟩
  | @act c c' c'' e es ha _ _ ih =>
    intro K h h2 hacks hsent he
    obtain ⟨a1, a2, a3, a4⟩ := h.act h2 hacks hsent (fun m hm => he m (hm ▸ List.mem_cons_self)) ha
    obtain ⟨b1, b2, b3, b4⟩ := ih a1 h2 hacks hsent fun m hm => he m (List.mem_cons_of_mem _ hm)
    rw [List.append_assoc] at b1 b2
    refine ⟨b1, fun m hm => ?_, fun n hn => ?_, fun n x hn => ?_⟩
    · rcases List.mem_cons.1 hm with hm | hm
      · intro hty
        obtain ⟨c1, c2, c3⟩ := a2 m hm.symm hty
        refine ⟨c1, c2, c3.imp_right fun h => ?_⟩
        rw [List.map_cons]
        rcases List.mem_append.1 h with h | h
        · exact List.mem_append_left _ h
        · exact List.mem_append_right _ (List.mem_cons.2 (.inl (List.mem_singleton.1 h)))
      · exact b2 m hm
    · rcases List.mem_cons.1 hn with hn | hn
      · exact a3 n hn.symm
      · exact b3 n hn
    · rcases List.mem_cons.1 hn with hn | hn
      · exact a4 n x hn.symm
      · exact b4 n x hn
  | quiet hq he _ ih =>
    intro K h h2 hacks hsent hes
    refine ih ?_ h2 hacks hsent hes
    cases hq with
    | stepDown => exact ⟨by nofun, h.own, h.qc⟩
    | complete => exact ⟨h.lead, h.own, h.qc⟩
    | @crash q h1 => exact ⟨by nofun, h.own, by have := h.qc; show q = 0; omega⟩
end

/-! ## The cluster -/

variable {C : Cluster} {w : World}

/-- See above. -/
structure Stalled (C : Cluster) (w : World) : Prop where
  own : ∀ i ∈ C.ids, ∀ e ∈ (w.log i).ents, (i, .lead e.term) ∈ w.hist
  applied : ∀ i ∈ C.ids, (w.node i).disk.applied = 0
  up : ∀ i ∈ C.ids, ∀ s, (w.node i).up = some s → s.quickCommit = 0 ∧ Good C.servers (keepAcks bare w.hist) i s
  sends : ∀ {j m}, (j, .send m) ∈ w.hist → Blank w.hist j m
  acks : ∀ ev ∈ w.evs, ∀ q r, ev.cause = some (.req q) → q.type = .appendReq → ev.eff = .reply r → r.accepted = true → r.nextIdx ≤ 1
  still : ∀ {j n}, (j, .advance n) ∉ w.hist
  none : ∀ {j n x}, (j, .commit n x) ∉ w.hist

theorem Stalled.init : Stalled C C.init := by
  refine ⟨fun i _ e he => ?_, fun i _ => rfl, fun i _ s hs => ?_, ?_, ?_, ?_, ?_⟩
  · cases he
  · cases hs
  · intro j m h; cases h
  · intro ev h; cases h
  · intro j n h; cases h
  · intro j n x h; cases h

/-- What is delivered confirms nothing. -/
theorem Stalled.allowed {ps : Int → PS} {g : Ghost} (hC : C.Ok) (hI : Inv C w ps g) (h : Stalled C w) {i : Int} {x : Input}
    (hd : Deliver w.evs i x) : Allowed C.servers (keepAcks bare w.hist) i x := by
  refine (hI.linked.allowed hC hI.safe.logs.votes hd).keepAcks fun ty r hx ht ha => ?_
  subst hx
  cases hd with
  | @answer e1 e2 q _ h1 h2 h3 h4 h5 h6 h7 h8 =>
    have he := hI.linked.effs e1 h1
    rw [h3] at he
    have hq : q.type = .appendReq := by
      rcases he.1 with hq | hq | hq
      · have := (hI.linked.replies e2 h5 q r h7 h8 (by rw [hq]; nofun)).2.1 hq
        rw [ht] at this; cases this.1
      · exact hq
      · exact absurd hq h4
    exact decide_eq_true (h.acks e2 h5 q r h7 hq h8 ha)

/-- An answer to an append request. -/
theorem Stalled.answer {ps : Int → PS} {g : Ghost} (hC : C.Ok) (hI : Inv C w ps g) (h : Stalled C w) {i : Int} (hi : i ∈ C.ids) {s : Srv}
    (hs : (w.node i).up = some s) {x : Input} (hd : Deliver w.evs i x) {q : Req} {r : Resp} (hx : x = .req q) (hq : q.type = .appendReq)
    (hr : .reply r ∈ (x.run { s with trace := [] }).2.trace) (ha : r.accepted = true) : r.nextIdx ≤ 1 := by
  obtain ⟨hg, hab⟩ := (hI.linked.nodes i hi).up s hs
  have hdisk := (hI.linked.nodes i hi).disk
  obtain ⟨q', s', hq', hp⟩ := answer_of_request rfl hr
  rw [hx] at hq'
  cases hq'
  have hstart : s.log.start = 1 := hg.start
  obtain ⟨b1, _, _, b4, _⟩ := (append_agrees { s with trace := [] } q hq (by show 1 ≤ s.log.start; omega) hp).1 ha
  subst hx
  cases hd with
  | @request ev _ h1 h2 h3 =>
    have hsend : (ev.node, .send q) ∈ w.hist := mem_hist.2 ⟨ev, h1, rfl, h2⟩
    obtain ⟨c1, _, c3⟩ := h.sends hsend hq
    rw [b4, c1]
    have key : q.lastIdx = 0 := by
      rcases Nat.eq_zero_or_pos q.lastIdx with h0 | h0
      · exact h0
      exfalso
      have h0' : q.lastIdx ≠ 0 := by omega
      have hlead := c3.resolve_left h0'
      have ht := b1.resolve_left h0'
      unfold termFor at ht
      rw [if_neg h0', if_pos (by show s.log.start ≤ _; omega)] at ht
      obtain ⟨e, he1, he2⟩ := Option.map_eq_some_iff.1 ht
      have hlog : (w.log i).ents = s.log.ents := by
        show (w.node i).disk.log.ents = _
        rw [hdisk.log, ← hab]; rfl
      have hmem : e ∈ s.log.ents := by
        have he1 : s.log.get? q.lastIdx = some e := he1
        unfold Log.get? at he1
        split at he1
        · cases he1
        · exact List.mem_of_getElem? he1
      have hmine := h.own i hi e (hlog ▸ hmem)
      rw [he2] at hmine
      have hne := hI.safe.logs.votes.one_leader hC.named hmine hlead
      have := (hI.safe.logs.votes.sent hsend (by rw [hq]; nofun)).2
      rw [← hne] at this
      exact this h3
    rw [key]; exact Nat.le_refl 1
  | client h1 _ => rw [hq] at h1; cases h1

/-- What a server that is up does with an input, up to any point. -/
theorem Stalled.fx {ps : Int → PS} {g : Ghost} (hC : C.Ok) (h2 : 2 ≤ C.ids.length) (hI : Inv C w ps g) (h : Stalled C w) {i : Int}
    (hi : i ∈ C.ids) {s : Srv} (hs : (w.node i).up = some s) (hp : s.params.maxAppend = 0) {x : Input} (hd : Deliver w.evs i x)
    {fs : List Eff} (hf : fs <+: (x.run { s with trace := [] }).2.trace) {c' : PS}
    (pp : Path C.servers (keepAcks bare w.hist) i (abs s) fs c') :
    Bare (w.hist ++ fs.map fun e => (i, e)) i c' ∧ (∀ m, .send m ∈ fs → Blank (w.hist ++ fs.map fun e => (i, e)) i m) ∧
      (∀ n, .advance n ∉ fs) ∧ ∀ n x, .commit n x ∉ fs := by
  obtain ⟨hg, hab⟩ := (hI.linked.nodes i hi).up s hs
  have hdisk := (hI.linked.nodes i hi).disk
  have hm : Member C.servers i := ⟨hC.nodup, hi, fun he => hC.named (he ▸ hi)⟩
  refine Bare.path pp ⟨fun hr => ?_, fun e he => ?_, (h.up i hi s hs).1⟩ (by
    show 2 ≤ C.servers.length
    have : C.ids.length = C.servers.length := List.length_map ..
    omega) ?_ ?_ ?_
  · have hr : (ps i).role = .leader := by rw [← hab]; exact hr
    have := (hI.safe.logs.votes.leader hr).1
    rw [← hab] at this
    exact this
  · refine h.own i hi e ?_
    show e ∈ (w.node i).disk.log.ents
    rw [hdisk.log, ← hab]
    exact he
  · intro v r h1 h3 h4
    exact of_decide_eq_true (keepAcks_of h1 h3 h4)
  · intro m hm
    obtain ⟨⟨j, hj⟩, _, hty⟩ := hm
    obtain ⟨c1, c2, _⟩ := h.sends (keepAcks_sub hj) hty
    exact ⟨c1, c2⟩
  · intro m hm hty
    obtain ⟨_, es, e1, e2⟩ := fw_run (x := x) (p := s.params) (fun r hx => by subst hx; cases hd) { s with trace := [] } rfl
    have e1 : (x.run { s with trace := [] }).2.trace = es := e1
    have hfew := e2 m (e1 ▸ hf.subset hm)
    have := hfew.1
    rw [if_pos hty] at this
    have hp' : ({ s with trace := [] } : Srv).params.maxAppend = 0 := hp
    rw [hp'] at this
    exact List.eq_nil_of_length_eq_zero (by omega)

theorem Stalled.step {ps : Int → PS} {g : Ghost} (hC : C.Ok) (h2 : 2 ≤ C.ids.length) (hmax : ∀ i ∈ C.ids, (C.params i).maxAppend = 0)
    (hpar : ∀ i s, (w.node i).up = some s → s.params = C.params i) (hI : Inv C w ps g) (h : Stalled C w) {w' : World} (st : C.Step w w') :
    Stalled C w' := by
  cases st with
  | @mk i x es n hi hx st =>
    have hm : Member C.servers i := ⟨hC.nodup, hi, fun he => hC.named (he ▸ hi)⟩
    have hdok := (hI.linked.nodes i hi).disk
    have grow : ∀ y ∈ w.hist, y ∈ w.hist ++ es.map fun e => (i, e) := fun y hy => List.mem_append_left _ hy
    have hblank : ∀ {j m}, Blank w.hist j m → Blank (w.hist ++ es.map fun e => (i, e)) j m := fun hb hty =>
      ⟨(hb hty).1, (hb hty).2.1, (hb hty).2.2.imp_right (grow _)⟩
    -- what has to be shown about the server that takes the step
    have key : (∀ e ∈ n.disk.log.ents, (i, .lead e.term) ∈ w.hist ++ es.map fun e => (i, e)) → n.disk.applied = 0 →
        (∀ s, n.up = some s → s.quickCommit = 0 ∧ Good C.servers (keepAcks bare (w.hist ++ es.map fun e => (i, e))) i s) →
        (∀ m, .send m ∈ es → Blank (w.hist ++ es.map fun e => (i, e)) i m) → (∀ n, .advance n ∉ es) → (∀ n x, .commit n x ∉ es) →
        (∀ q r, x = some (.req q) → q.type = .appendReq → .reply r ∈ es → r.accepted = true → r.nextIdx ≤ 1) →
        Stalled C ⟨fun k => if k = i then n else w.node k, w.evs ++ es.map fun e => ⟨i, x, e⟩⟩ := by
      intro k1 k2 k3 k4 k5 k6 k7
      have hh : World.hist ⟨fun k => if k = i then n else w.node k, w.evs ++ es.map fun e => ⟨i, x, e⟩⟩ =
          w.hist ++ es.map fun e => (i, e) := hist_snoc
      refine ⟨fun k hk e he => ?_, fun k hk => ?_, fun k hk s hs => ?_, ?_, ?_, ?_, ?_⟩
      · rw [hh]
        by_cases hki : k = i
        · subst hki
          refine k1 e ?_
          simpa [World.log] using he
        · refine grow _ (h.own k hk e ?_)
          simpa [World.log, hki] using he
      · by_cases hki : k = i
        · simp only [hki, if_true]; exact k2
        · simp only [if_neg hki]; exact h.applied k hk
      · rw [hh]
        by_cases hki : k = i
        · simp only [hki, if_true] at hs
          rw [hki]
          exact k3 s hs
        · simp only [if_neg hki] at hs
          exact ⟨(h.up k hk s hs).1, (h.up k hk s hs).2.mono fun y hy => keepAcks_mono grow hy⟩
      · intro j m hj
        rw [hh] at hj ⊢
        rcases List.mem_append.1 hj with hj | hj
        · exact hblank (h.sends hj)
        · obtain ⟨e, he, h3⟩ := List.mem_map.1 hj
          cases h3
          exact k4 m he
      · intro ev hev q r hc hq hr ha
        rcases List.mem_append.1 hev with hev | hev
        · exact h.acks ev hev q r hc hq hr ha
        · obtain ⟨e, he, rfl⟩ := List.mem_map.1 hev
          have hr : e = .reply r := hr
          exact k7 q r hc hq (hr ▸ he) ha
      · intro j n hj
        rw [hh] at hj
        rcases List.mem_append.1 hj with hj | hj
        · exact h.still hj
        · obtain ⟨e, he, h3⟩ := List.mem_map.1 hj
          cases h3
          exact k5 n he
      · intro j n x hj
        rw [hh] at hj
        rcases List.mem_append.1 hj with hj | hj
        · exact h.none hj
        · obtain ⟨e, he, h3⟩ := List.mem_map.1 hj
          cases h3
          exact k6 n x he
    have happ := h.applied i hi
    have hup := h.up i hi
    rcases hw : w.node i with ⟨d, up⟩
    rw [hw] at st hdok happ hup
    have hwup : (w.node i).up = up := by rw [hw]
    -- an input that is handled to its end
    have ran : ∀ {s : Srv} {y : Input}, up = some s → x = some y → es = (y.run { s with trace := [] }).2.trace →
        n = ⟨d.afterAll es, some (y.run { s with trace := [] }).2⟩ →
        Stalled C ⟨fun k => if k = i then n else w.node k, w.evs ++ es.map fun e => ⟨i, x, e⟩⟩ := by
      intro s y hu hxy hes hn
      have hs : (w.node i).up = some s := hwup.trans hu
      have hdel := hx y hxy
      have ha := h.allowed hC hI hdel
      have g0 : Good C.servers (keepAcks bare w.hist) i { s with trace := [] } :=
        Still.good (s := s) ⟨rfl, rfl, rfl, rfl, rfl, rfl, rfl, rfl, rfl, rfl, rfl, rfl, rfl, fun h => h, rfl⟩ (h.up i hi s hs).2
      obtain ⟨g1, fs, e1, pp⟩ := allowed_T g0 ha
      have e1 : (y.run { s with trace := [] }).2.trace = fs := e1
      rw [← e1, ← hes] at pp
      have hab := ((hI.linked.nodes i hi).up s hs).2
      have f := h.fx hC h2 hI hi hs (by rw [hpar i s hs]; exact hmax i hi) hdel (fs := es) (by rw [hes]; exact List.prefix_refl _) pp
      have hd1 := pp.disk (by show DiskOk C.servers d (abs s); rw [hab]; exact hdok)
      rw [hn] at key ⊢
      refine key ?_ ?_ ?_ f.2.1 f.2.2.1 f.2.2.2 ?_
      · intro e he
        have he : e ∈ (d.afterAll es).log.ents := he
        rw [hd1.log] at he
        exact f.1.own e he
      · have := hd1.applied
        rw [f.1.qc] at this
        show (d.afterAll es).applied = 0
        omega
      · intro s' hs'
        cases hs'
        exact ⟨f.1.qc, g1.mono fun z hz => keepAcks_mono grow hz⟩
      · intro q r hq hqt hr hacc
        rw [hxy] at hq
        rw [hes] at hr
        exact h.answer hC hI hi hs hdel (Option.some.inj hq) hqt hr hacc
    cases st with
    | @run _ s s' y hr => exact ran rfl rfl (by rw [hr]) (by rw [hr])
    | @survive _ s s' y hr => exact ran rfl rfl (by rw [hr]) (by rw [hr])
    | @crash _ s y _ hpre =>
      have hs : (w.node i).up = some s := hwup
      have hdel := hx y rfl
      have ha := h.allowed hC hI hdel
      have g0 : Good C.servers (keepAcks bare w.hist) i { s with trace := [] } :=
        Still.good (s := s) ⟨rfl, rfl, rfl, rfl, rfl, rfl, rfl, rfl, rfl, rfl, rfl, rfl, rfl, fun h => h, rfl⟩ (h.up i hi s hs).2
      obtain ⟨g1, fs, e1, pp⟩ := allowed_T g0 ha
      have e1 : (y.run { s with trace := [] }).2.trace = fs := e1
      rw [← e1] at pp
      have hab := ((hI.linked.nodes i hi).up s hs).2
      obtain ⟨c1, pp⟩ := pp.take hpre
      have f := h.fx hC h2 hI hi hs (by rw [hpar i s hs]; exact hmax i hi) hdel hpre pp
      have hd1 := pp.disk (by show DiskOk C.servers d (abs s); rw [hab]; exact hdok)
      refine key ?_ ?_ (fun s' hs' => by cases hs') f.2.1 f.2.2.1 f.2.2.2 ?_
      · intro e he
        have he : e ∈ (d.afterAll es).log.ents := he
        rw [hd1.log] at he
        exact f.1.own e he
      · have := hd1.applied
        rw [f.1.qc] at this
        show (d.afterAll es).applied = 0
        omega
      · intro q r hq hqt hr hacc
        exact h.answer hC hI hi hs hdel (Option.some.inj hq) hqt (hpre.subset hr) hacc
    | boot =>
      refine key ?_ happ ?_ (fun m hm => by cases hm) (fun n hn => by cases hn) (fun n x hn => by cases hn) (fun q r hq => by cases hq)
      · intro e he
        rw [List.map_nil, List.append_nil]
        refine h.own i hi e ?_
        show e ∈ (w.node i).disk.log.ents
        rw [hw]; exact he
      · intro s hs
        cases hs
        exact ⟨happ, boot_good hdok hC.nodup (hC.noSnap i)⟩

theorem Stalled.reach (hC : C.Ok) (h2 : 2 ≤ C.ids.length) (hmax : ∀ i ∈ C.ids, (C.params i).maxAppend = 0) (h : C.Reach w) :
    Stalled C w := by
  induction h with
  | refl => exact Stalled.init
  | @step w1 w2 hr st ih =>
    obtain ⟨ps, g, hI⟩ := Cluster.Reach.inv hC hr
    exact ih.step hC h2 hmax (hr.params fun i s hs => by cases hs) hI st

end Cs.Raft
