import Verif.Cluster.Lead

/-!
# A majority can always make progress: the members get the command, and it is committed
-/

namespace Cs.Raft
open Cs

variable {C : Cluster} {M : List Int} {w w' : World} {S S' : Int → Srv} {b k : Int}

theorem ReqFor.grow {L L' : Srv} {n : Nat} {q : Req} (h : ReqFor k L n q) (hn : 0 < n) (hle : n ≤ L.log.next) (h1 : L.log.start = 1)
    (h2 : L'.log.start = 1) (h3 : L'.term = L.term) (h4 : L.log.ents <+: L'.log.ents) : ReqFor k L' n q := by
  obtain ⟨t, ht⟩ := h4
  refine ⟨h.type, h.term.trans h3.symm, h.dst, h.idx, fun e he => h.prev e ?_, ?_⟩
  · rw [Log.get?_prefix (h2.trans h1.symm) ht.symm (by omega)] at he; exact he
  · rw [← ht, List.drop_append_of_le_length (by unfold Log.next at hle; omega)]
    exact h.entries.trans (List.prefix_append _ _)

/-- The leader `b` waits for the answer of `k` to `q`, about the entries from `n` on. -/
structure Awaits (b k : Int) (w : World) (L : Srv) (n : Nat) (q : Req) : Prop where
  record : ∃ p, L.findPeer k = some p ∧ p.busy = true ∧ p.nextIdx = n
  pos : 0 < n
  sent : ∃ ev ∈ w.evs, ev.node = b ∧ ev.eff = .send q
  req : ReqFor k L n q

/-- Leader `b` of term `T` with log `lg` collects answers; `done` have all its entries. -/
structure Gathers (M : List Int) (b : Int) (T : Nat) (lg : Log) (done : List Int) (w : World) (S : Int → Srv) : Prop where
  lead : (S b).role = .leader
  term : (S b).term = T
  log : (S b).log = lg
  next : ∀ p ∈ (S b).peers, p.nextIdx ≤ lg.next
  follow : ∀ j ∈ M, (S j).term ≤ T
  waits : ∀ k ∈ M, k ≠ b → k ∉ done → ∃ n q, Awaits b k w (S b) n q
  nodup : done.Nodup
  mem : ∀ k ∈ done, k ∈ M ∧ k ≠ b
  has : ∀ k ∈ done, (∃ p, (S b).findPeer k = some p ∧ p.matched = lg.next - 1) ∧ (S k).log.start = 1 ∧
    ∀ j < lg.next, (S k).log.get? j = lg.get? j
  commit : (S b).peers.length + 1 < 2 * (done.length + 1) → done ≠ [] → lg.next - 1 ≤ (S b).quickCommit

theorem ReqFor.same {L L' : Srv} {n : Nat} {q : Req} (h : ReqFor k L n q) (h1 : L'.term = L.term) (h2 : L'.log = L.log) : ReqFor k L' n q :=
  ⟨h.type, h.term.trans h1.symm, h.dst, h.idx, by rw [h2]; exact h.prev, by rw [h2]; exact h.entries⟩

theorem Awaits.keep {L L' : Srv} {n : Nat} {q : Req} {i : Int} (h : Awaits b k w L n q) (hk : k ≠ i) (hw : ∀ ev ∈ w.evs, ev ∈ w'.evs)
    (hh : Heeds i L L') (h1 : L'.term = L.term) (h2 : L'.log = L.log) : Awaits b k w' L' n q := by
  obtain ⟨p, p1, p2, p3⟩ := h.record
  obtain ⟨p', q1, q2⟩ := hh.others k hk p p1
  obtain ⟨ev, e1, e2⟩ := h.sent
  have := h.pos
  exact ⟨⟨p', q1, q2.busy p2, (q2.next (by omega)).trans p3⟩, h.pos, ⟨ev, hw ev e1, e2⟩, h.req.same h1 h2⟩

/-- What is left alone by a round with member `k`. -/
theorem Gathers.round {T n : Nat} {lg : Log} {done : List Int} (h : Gathers M b T lg done w S) (hkb : k ≠ b) (hkd : k ∉ done) {F' L' : Srv}
    (hF : F'.term = T) (hv : View k n { S b with trace := [] } L') (hh : Heeds k { S b with trace := [] } L')
    (hw : ∀ ev ∈ w.evs, ev ∈ w'.evs) :
    L'.role = .leader ∧ L'.term = T ∧ L'.log = lg ∧ (∀ p ∈ L'.peers, p.nextIdx ≤ lg.next) ∧
    (∀ j ∈ M, (nodeAt (nodeAt S k F') b L' j).term ≤ T) ∧
    (∀ j ∈ M, j ≠ b → j ≠ k → j ∉ done → ∃ n q, Awaits b j w' L' n q) ∧
    (∀ j ∈ done, (∃ p, L'.findPeer j = some p ∧ p.matched = lg.next - 1) ∧ (nodeAt (nodeAt S k F') b L' j).log.start = 1 ∧
      ∀ m < lg.next, (nodeAt (nodeAt S k F') b L' j).log.get? m = lg.get? m) ∧
    L'.peers.length = (S b).peers.length ∧ (S b).quickCommit ≤ L'.quickCommit := by
  have t1 : L'.term = T := hv.term.trans h.term
  have l1 : L'.log = lg := hv.log.trans h.log
  refine ⟨hv.lead, t1, l1, fun p hp => ?_, fun j hj => ?_, fun j hj hjb hjk hjd => ?_, fun j hj => ?_, ?_, hh.quick⟩
  · have := hv.next p hp
    rw [← h.log]; exact this
  · by_cases hjb : j = b
    · subst hjb; rw [nodeAt_self, t1]; exact Nat.le_refl _
    · rw [nodeAt_ne hjb]
      by_cases hjk : j = k
      · subst hjk; rw [nodeAt_self, hF]; exact Nat.le_refl _
      · rw [nodeAt_ne hjk]; exact h.follow j hj
  · obtain ⟨n, q, a⟩ := h.waits j hj hjb hjd
    refine ⟨n, q, Awaits.keep (i := k) (L := { S b with trace := [] }) ⟨a.record, a.pos, a.sent, a.req.same rfl rfl⟩ hjk hw hh hv.term hv.log⟩
  · have hjk : j ≠ k := fun hc => hkd (by rw [← hc]; exact hj)
    obtain ⟨⟨p, p1, p2⟩, g1, g2⟩ := h.has j hj
    obtain ⟨p', q1, q2⟩ := hh.others j hjk p p1
    rw [nodeAt_ne (h.mem j hj).2, nodeAt_ne hjk]
    exact ⟨⟨p', q1, q2.matched.trans p2⟩, g1, g2⟩
  · have := congrArg List.length hv.ids
    rw [List.length_map, List.length_map] at this
    exact this

theorem mem_of_answers {a : Resp} {es : List Eff} (h : answers es = [a]) : .reply a ∈ es := by
  have h1 : a ∈ answers es := by rw [h]; exact List.mem_singleton.2 rfl
  obtain ⟨e, h2, h3⟩ := List.mem_filterMap.1 h1
  cases e <;> first | (cases h3; exact h2) | cases h3

/-- The leader serves. -/
theorem Gathers.serves (hC : C.Ok) {T : Nat} {lg : Log} {done : List Int} (hr : Running C M w S) (hb : b ∈ M) (hm : 0 < (C.params b).maxAppend)
    (h : Gathers M b T lg done w S) : Serves { S b with trace := [] } :=
  have f := hr.fine hC hb
  ⟨h.lead, f.start, by show ∀ p ∈ (S b).peers, p.nextIdx ≤ (S b).log.next; rw [h.log]; exact h.next, by show 0 < (S b).params.maxAppend; rw [f.params]; exact hm⟩

/-- The two messages of a round are delivered. -/
theorem round_put (hC : C.Ok) {T n : Nat} {lg : Log} {done : List Int} {q : Req} (hr : Running C M w S) (hb : b ∈ M)
    (hm : 0 < (C.params b).maxAppend) (h : Gathers M b T lg done w S) (hk : k ∈ M) (hkb : k ≠ b) (ha : Awaits b k w (S b) n q) :
    ∃ a F', Answer { S b with trace := [] } (S k) q a F' ∧
      (a.accepted = true ∧ a.nextIdx = n + q.entries.length ∧ n + q.entries.length ≤ lg.next ∧ AgreeTo (n + q.entries.length) (S b) F' ∨
        a.accepted = false ∧ 1 < n ∧ ¬AgreeTo n (S b) (S k)) ∧
      ∀ L', (Input.peerResp .appendReq a).run { S b with trace := [] } = (.ok ⟨⟩, L') →
        ∃ w', C.Work M w w' ∧ Running C M w' (nodeAt (nodeAt S k F') b L') ∧
          ∀ e ∈ L'.trace, ∃ ev ∈ w'.evs, ev.node = b ∧ ev.eff = e := by
  have hS := h.serves hC hr hb hm
  obtain ⟨f1, f2, f3, f4, p, f5⟩ := cluster_fits hC hr.reach (hr.sub b hb) (hr.sub k hk) (Ne.symm hkb) (hr.up b hb) h.lead (hr.up k hk)
    (by rw [h.term]; exact h.follow k hk)
  obtain ⟨p1, q1, q2, q3⟩ := ha.record
  have hn : n ≤ (S b).log.next := by
    rw [← q3, h.log]; exact h.next p1 (List.mem_of_find?_eq_some q1)
  have hq : ReqFor k { S b with trace := [] } n q := ha.req.same rfl rfl
  obtain ⟨ev, e1, e2, e3⟩ := ha.sent
  obtain ⟨a, F', c1, c2⟩ := member_run hS (F := S k) ⟨f2.start, f2.term, f2.follows⟩ ⟨f3.matching, f3.own⟩ ha.pos hn hq
  refine ⟨a, F', c1, ?_, fun L' hL' => ?_⟩
  · rcases c2 with ⟨d1, d2, d3, _⟩ | ⟨d1, d2, d3, _⟩
    · exact .inl ⟨d1, d2, by rw [← h.log]; exact hq.fits f1 hn ha.pos, d3⟩
    · exact .inr ⟨d1, d2, d3⟩
  · obtain ⟨w1, a1, g1⟩ := hr.put hk (.request e1 e3 hq.dst) c1.run (fun n hn => by cases hn)
    have hSb : nodeAt S k F' b = S b := nodeAt_ne (Ne.symm hkb)
    have hd : Deliver (w.put k (.req q) F').evs b (.peerResp .appendReq a) := by
      have := Deliver.answer (E := (w.put k (.req q) F').evs) (i := b) (q := q) (r := a) (w1.evs _ e1) e2 e3 (by rw [hq.type]; exact fun h => (by cases h))
        (g1 _ (mem_of_answers c1.answers)) hq.dst.symm rfl rfl
      rw [hq.type] at this
      exact this
    obtain ⟨w2, a2, g2⟩ := a1.put hb hd (by rw [hSb]; exact hL') (fun n hn => by cases hn)
    exact ⟨_, w1.trans w2, a2, fun e he => ⟨_, g2 e he, rfl, rfl⟩⟩

/-- The outcome of a round that is not the last one. -/
structure Again (M : List Int) (b k : Int) (T : Nat) (lg : Log) (done : List Int) (n' : Nat) (w' : World) (S S' : Int → Srv) : Prop where
  gathers : Gathers M b T lg done w' S'
  more : ∃ q', Awaits b k w' (S' b) n' q' ∧ (n' < lg.next → q'.entries ≠ [])
  same : (S' b).smCommit = (S b).smCommit

/-- One round with member `k`. -/
theorem round_run (hC : C.Ok) {T n : Nat} {lg : Log} {done : List Int} {q : Req} (hr : Running C M w S) (hb : b ∈ M)
    (hm : 0 < (C.params b).maxAppend) (hlim : lg.next ≤ 2 ^ 64) (h : Gathers M b T lg done w S) (hk : k ∈ M) (hkb : k ≠ b)
    (hkd : k ∉ done) (ha : Awaits b k w (S b) n q) :
    ∃ w' S', C.Work M w w' ∧ Running C M w' S' ∧ (S' b).smCommit = (S b).smCommit ∧ (Gathers M b T lg (k :: done) w' S' ∨
      (∃ n', n' < n ∧ ¬AgreeTo n (S b) (S k) ∧ Again M b k T lg done n' w' S S') ∨
      Again M b k T lg done (n + q.entries.length) w' S S' ∧ n + q.entries.length < lg.next ∧
        AgreeTo (n + q.entries.length) (S' b) (S' k)) := by
  have hS := h.serves hC hr hb hm
  have hbk : b ≠ k := Ne.symm hkb
  have fk := hr.fine hC hk
  obtain ⟨p, p1, p2, p3⟩ := ha.record
  obtain ⟨a, F', c1, c2, c3⟩ := round_put hC hr hb hm h hk hkb ha
  have hF : F'.term = T := c1.term.trans h.term
  have hsrc : a.src = k := c1.src.trans fk.id
  have hheed := heeds_answer (L := { S b with trace := [] }) c1.type c1.aterm hsrc (by show ((S b).findPeer k).isSome = true; rw [p1]; rfl)
  rcases c2 with ⟨d1, d2, d3, d4⟩ | ⟨d1, d2, d3⟩
  · have hpos := ha.pos
    by_cases hlt : n + q.entries.length < lg.next
    · obtain ⟨L', e1, e2, p', q', e3, e4, e5, e6, e7⟩ := accepted_run hS p1 rfl c1.type c1.aterm hsrc d1 (by omega)
        (by rw [d2]; show _ < (S b).log.next; rw [h.log]; exact hlt)
      obtain ⟨w', g1, g2, g3⟩ := c3 L' e1
      rw [e1] at hheed
      obtain ⟨k1, k2, k3, k4, k5, k6, k7, k8, k9⟩ := h.round hkb hkd hF e2 hheed g1.evs
      have eb : nodeAt (nodeAt S k F') b L' b = L' := nodeAt_self _ _ _
      have ek : nodeAt (nodeAt S k F') b L' k = F' := by rw [nodeAt_ne hkb, nodeAt_self]
      rw [d2] at e4 e6 e7
      have hbusy : p'.busy = true := by
        obtain ⟨p2, x1, _, x3⟩ := e2.record
        rw [e3] at x1
        cases x1
        rcases x3 with x3 | x3
        · rw [e5] at x3; cases x3.2
        · exact x3.1
      have haw : Awaits b k w' L' (n + q.entries.length) q' :=
        ⟨⟨p', e3, hbusy, e4⟩, by omega, g3 _ (mem_of_sendsTo (k := k) (by rw [e5]; exact List.mem_singleton.2 rfl)), e6.same e2.term e2.log⟩
      refine ⟨w', _, g1, g2, by rw [eb]; exact hheed.applied, .inr (.inr ⟨⟨⟨by rw [eb]; exact k1, by rw [eb]; exact k2, by rw [eb]; exact k3,
        by rw [eb]; exact k4, k5, ?_, h.nodup, h.mem, ?_, ?_⟩, ⟨q', by rw [eb]; exact haw, fun hx => e7 (by show _ < (S b).log.next; rw [h.log]; exact hx)⟩,
        by rw [eb]; exact hheed.applied⟩, hlt, ?_⟩)⟩
      · intro j hj hjb hjd
        rw [eb]
        by_cases hjk : j = k
        · subst hjk; exact ⟨_, _, haw⟩
        · exact k6 j hj hjb hjk hjd
      · rw [eb]; exact k7
      · rw [eb, k8]
        exact fun x y => Nat.le_trans (h.commit x y) k9
      · rw [eb, ek]
        intro j hj
        rw [k3, ← h.log]
        exact d4 j hj
    · have hfin : a.nextIdx = (S b).log.next := by rw [h.log]; omega
      obtain ⟨L', e1, e2⟩ := final_run hS p1 rfl c1.type c1.aterm hsrc d1 hfin
      obtain ⟨w', g1, g2, g3⟩ := c3 L' e1
      obtain ⟨t1, t2⟩ := target_answer (L := { S b with trace := [] }) c1.type c1.aterm hsrc p1 d1
      rw [e1] at hheed t1 t2
      obtain ⟨k1, k2, k3, k4, k5, k6, k7, k8, k9⟩ := h.round hkb hkd hF e2 hheed g1.evs
      have eb : nodeAt (nodeAt S k F') b L' b = L' := nodeAt_self _ _ _
      have ek : nodeAt (nodeAt S k F') b L' k = F' := by rw [nodeAt_ne hkb, nodeAt_self]
      have hpos2 : 0 < lg.next := by omega
      have hsub : subU64 a.nextIdx 1 = lg.next - 1 := by
        rw [hfin, h.log]; unfold subU64; omega
      have hmatch : ∃ p', L'.findPeer k = some p' ∧ p'.matched = lg.next - 1 := by
        obtain ⟨p', x1, x2⟩ := matches_find (i := k) { S b with trace := [] } a.nextIdx p1
        obtain ⟨p'', y1, y2⟩ := t1.find k p' x1
        exact ⟨p'', y1, by rw [y2.matched, x2, hsub]⟩
      have hhas : ∀ j ∈ k :: done, (∃ p, L'.findPeer j = some p ∧ p.matched = lg.next - 1) ∧
          (nodeAt (nodeAt S k F') b L' j).log.start = 1 ∧ ∀ m < lg.next, (nodeAt (nodeAt S k F') b L' j).log.get? m = lg.get? m := by
        intro j hj
        rcases List.mem_cons.1 hj with rfl | hj
        · rw [ek]
          refine ⟨hmatch, c1.start, fun m hm => ?_⟩
          rw [d4 m (by omega), h.log]
        · exact k7 j hj
      refine ⟨w', _, g1, g2, by rw [eb]; exact hheed.applied, .inl ⟨by rw [eb]; exact k1, by rw [eb]; exact k2, by rw [eb]; exact k3,
        by rw [eb]; exact k4, k5, ?_, List.nodup_cons.2 ⟨hkd, h.nodup⟩, ?_, by rw [eb]; exact hhas, ?_⟩⟩
      · intro j hj hjb hjd
        rw [eb]
        exact k6 j hj hjb (fun hc => hjd (by rw [hc]; exact List.mem_cons_self ..)) fun hc => hjd (List.mem_cons_of_mem _ hc)
      · intro j hj
        rcases List.mem_cons.1 hj with rfl | hj
        · exact ⟨hk, hkb⟩
        · exact h.mem j hj
      · rw [eb, k8]
        intro hx _
        refine Nat.le_trans (commitTarget_ge (A := k :: done) (n := lg.next - 1) ?_ (List.nodup_cons.2 ⟨hkd, h.nodup⟩) ?_ ?_) t2
        · show lg.next - 1 < (S b).log.next
          rw [h.log]; omega
        · intro j hj
          obtain ⟨⟨pj, x1, x2⟩, _⟩ := hhas j hj
          have x3 : pj.stamp ∈ L'.peers.map Peer.stamp := List.mem_map.2 ⟨pj, List.mem_of_find?_eq_some x1, rfl⟩
          rw [t1.stamps] at x3
          obtain ⟨r, y1, y2⟩ := List.mem_map.1 x3
          have z1 : r.id = pj.id := congrArg Prod.fst y2
          have z2 : r.matched = pj.matched := congrArg (fun x => x.2.1) y2
          refine ⟨r, y1, ?_, by rw [z2, x2]; exact Nat.le_refl _⟩
          rw [z1]; have := List.find?_some x1; simpa using this
        · have := congrArg List.length (matches_ids (i := k) { S b with trace := [] } a.nextIdx)
          rw [List.length_map, List.length_map] at this
          rw [this]; exact hx
  · obtain ⟨L', e1, e2, p', q', e3, e4, e5, e6, e7⟩ := refused_run hS p1 rfl c1.type c1.aterm hsrc d1 (by rw [p3]; exact d2)
    obtain ⟨w', g1, g2, g3⟩ := c3 L' e1
    rw [e1] at hheed
    obtain ⟨k1, k2, k3, k4, k5, k6, k7, k8, k9⟩ := h.round hkb hkd hF e2 hheed g1.evs
    have eb : nodeAt (nodeAt S k F') b L' b = L' := nodeAt_self _ _ _
    rw [p3] at e4 e6 e7
    have hbusy : p'.busy = true := by
      obtain ⟨p2, x1, _, x3⟩ := e2.record
      rw [e3] at x1
      cases x1
      rcases x3 with x3 | x3
      · rw [e5] at x3; cases x3.2
      · exact x3.1
    have hlow : 0 < lowered n a.nextIdx ∧ lowered n a.nextIdx < n := by unfold lowered; split <;> omega
    have haw : Awaits b k w' L' (lowered n a.nextIdx) q' :=
      ⟨⟨p', e3, hbusy, e4⟩, hlow.1, g3 _ (mem_of_sendsTo (k := k) (by rw [e5]; exact List.mem_singleton.2 rfl)), e6.same e2.term e2.log⟩
    refine ⟨w', _, g1, g2, by rw [eb]; exact hheed.applied, .inr (.inl ⟨_, hlow.2, d3, ⟨by rw [eb]; exact k1, by rw [eb]; exact k2, by rw [eb]; exact k3,
      by rw [eb]; exact k4, k5, ?_, h.nodup, h.mem, ?_, ?_⟩, ⟨q', by rw [eb]; exact haw, fun hx => e7 (by show _ < (S b).log.next; rw [h.log]; exact hx)⟩,
      by rw [eb]; exact hheed.applied⟩)⟩
    · intro j hj hjb hjd
      rw [eb]
      by_cases hjk : j = k
      · subst hjk; exact ⟨_, _, haw⟩
      · exact k6 j hj hjb hjk hjd
    · rw [eb]; exact k7
    · rw [eb, k8]
      exact fun x y => Nat.le_trans (h.commit x y) k9

section
variable (hC : C.Ok) (hb : b ∈ M) (hm : 0 < (C.params b).maxAppend) {T : Nat} {lg : Log} (hlim : lg.next ≤ 2 ^ 64) {done : List Int}
  (hk : k ∈ M) (hkb : k ≠ b) (hkd : k ∉ done)
include hC hb hm hlim hk hkb hkd

theorem serve_agreed : ∀ (m n : Nat) {w : World} {S : Int → Srv} {q : Req}, lg.next - n ≤ m → Running C M w S → Gathers M b T lg done w S →
    Awaits b k w (S b) n q → (n < lg.next → q.entries ≠ []) → AgreeTo n (S b) (S k) →
    ∃ w' S', C.Work M w w' ∧ Running C M w' S' ∧ (S' b).smCommit = (S b).smCommit ∧ Gathers M b T lg (k :: done) w' S' := by
  intro m
  induction m with
  | zero =>
    intro n w S q hle hr h ha _ hag
    obtain ⟨w', S', a1, a2, a3, a4 | ⟨n', _, a4, _⟩ | ⟨_, a4, _⟩⟩ := round_run hC hr hb hm hlim h hk hkb hkd ha
    · exact ⟨w', S', a1, a2, a3, a4⟩
    · exact absurd hag a4
    · omega
  | succ m ih =>
    intro n w S q hle hr h ha hne hag
    obtain ⟨w', S', a1, a2, a3, a4 | ⟨n', _, a4, _⟩ | ⟨a4, a5, a6⟩⟩ := round_run hC hr hb hm hlim h hk hkb hkd ha
    · exact ⟨w', S', a1, a2, a3, a4⟩
    · exact absurd hag a4
    · obtain ⟨q', c1, c2⟩ := a4.more
      have := List.length_pos_iff.2 (hne (by omega))
      obtain ⟨w2, S2, b1, b2, b3, b4⟩ := ih _ (by omega) a2 a4.gathers c1 c2 a6
      exact ⟨w2, S2, a1.trans b1, b2, b3.trans a3, b4⟩

theorem serve_any : ∀ (m n : Nat) {w : World} {S : Int → Srv} {q : Req}, n ≤ m → Running C M w S → Gathers M b T lg done w S →
    Awaits b k w (S b) n q →
    ∃ w' S', C.Work M w w' ∧ Running C M w' S' ∧ (S' b).smCommit = (S b).smCommit ∧ Gathers M b T lg (k :: done) w' S' := by
  intro m
  induction m with
  | zero =>
    intro n w S q hle hr h ha
    exact absurd ha.pos (by omega)
  | succ m ih =>
    intro n w S q hle hr h ha
    obtain ⟨w', S', a1, a2, a3, a4 | ⟨n', a5, _, a4⟩ | ⟨a4, a5, a6⟩⟩ := round_run hC hr hb hm hlim h hk hkb hkd ha
    · exact ⟨w', S', a1, a2, a3, a4⟩
    · obtain ⟨q', c1, c2⟩ := a4.more
      obtain ⟨w2, S2, b1, b2, b3, b4⟩ := ih _ (by omega) a2 a4.gathers c1
      exact ⟨w2, S2, a1.trans b1, b2, b3.trans a3, b4⟩
    · obtain ⟨q', c1, c2⟩ := a4.more
      obtain ⟨w2, S2, b1, b2, b3, b4⟩ := serve_agreed hC hb hm hlim hk hkb hkd _ _ (Nat.le_refl _) a2 a4.gathers c1 c2 a6
      exact ⟨w2, S2, a1.trans b1, b2, b3.trans a3, b4⟩
end

theorem serve_all (hC : C.Ok) (hb : b ∈ M) (hm : 0 < (C.params b).maxAppend) {T : Nat} {lg : Log} (hlim : lg.next ≤ 2 ^ 64) :
    ∀ (ks done : List Int) {w : World} {S : Int → Srv}, ks.Nodup → (∀ k ∈ ks, k ∈ M ∧ k ≠ b ∧ k ∉ done) → Running C M w S →
    Gathers M b T lg done w S → ∃ w' S' done', C.Work M w w' ∧ Running C M w' S' ∧ (S' b).smCommit = (S b).smCommit ∧
      Gathers M b T lg done' w' S' ∧ (∀ k ∈ ks ++ done, k ∈ done') ∧ done'.length = ks.length + done.length
  | [], done, w, S, _, _, hr, h => ⟨w, S, done, .refl, hr, rfl, h, fun _ h => h, by simp⟩
  | k :: ks, done, w, S, hn, hk, hr, h => by
    obtain ⟨h1, h2, h3⟩ := hk k (List.mem_cons_self ..)
    obtain ⟨hn1, hn2⟩ := List.nodup_cons.1 hn
    obtain ⟨n, q, ha⟩ := h.waits k h1 h2 h3
    obtain ⟨w1, S1, a1, a2, a3, a4⟩ := serve_any hC hb hm hlim h1 h2 h3 _ _ (Nat.le_refl _) hr h ha
    obtain ⟨w2, S2, d', b1, b2, b3, b4, b5, b6⟩ := serve_all hC hb hm hlim ks (k :: done) hn2 (fun x hx => by
      obtain ⟨g1, g2, g3⟩ := hk x (List.mem_cons_of_mem _ hx)
      refine ⟨g1, g2, fun hc => ?_⟩
      rcases List.mem_cons.1 hc with rfl | hc
      · exact hn1 hx
      · exact g3 hc) a2 a4
    refine ⟨w2, S2, d', a1.trans b1, b2, b3.trans a3, b4, fun x hx => b5 x ?_, by rw [b6]; simp only [List.length_cons]; omega⟩
    rcases List.mem_append.1 hx with hx | hx
    · rcases List.mem_cons.1 hx with rfl | hx
      · exact List.mem_append_right _ (List.mem_cons_self ..)
      · exact List.mem_append_left _ hx
    · exact List.mem_append_right _ (List.mem_cons_of_mem _ hx)

end Cs.Raft
