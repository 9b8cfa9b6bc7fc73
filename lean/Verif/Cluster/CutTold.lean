import Verif.Cluster.Told
import Verif.Cluster.CutWait

/-!
# Leaders that know what the others have in their own term, with compacted logs

As `Verif/Cluster/Told.lean`.
-/

namespace Cs.Raft.Cut
open Cs Cs.Raft

section
variable {cs : List SrvCfg} {H : History} {i : Int} {pre : List Entry} {f : Resp → Bool}

/-- A server all records of which are backed by answers `f` accepts. -/
theorem Good.keepAcks {s : Srv} (g : Good cs H i pre s)
    (hm : ∀ k ∈ s.peers.map Peer.key, ∀ n, 0 < n → n ≤ k.2 → Acked (keepAcks f H) k.1.id n) : Good cs (keepAcks f H) i pre s := by
  refine { g with votes := fun hc => ?_, matched := hm }
  obtain ⟨V, h1, h2, h3, h4⟩ := g.votes hc
  refine ⟨V, h1, h2, h3, fun v hv => ⟨(h4 v hv).1, ?_⟩⟩
  rcases (h4 v hv).2 with a | ⟨r, a, b, c⟩
  · exact .inl a
  · exact .inr ⟨r, keepAcks_vote a b, b, c⟩

variable [hm : Member cs i]
include hm

theorem acceptedResp_L {s : Srv} {r : Resp} (g : Good cs H i pre s) (hr : s.role = .leader) (h1 : (r.src, .reply r) ∈ H)
    (h2 : r.type = .appendResp) (h3 : r.accepted = true) (h4 : 0 < r.nextIdx) :
    T cs H i pre s (acceptedResp r s).2 ∧ (acceptedResp r s).2.role = .leader ∧ (acceptedResp r s).2.term = s.term := by
  unfold acceptedResp
  rw [bind_modPeer, bind_get]
  have t1 := acked_T g h1 h2 h3 h4
  have r1 : (s.setPeer (.member r.src) fun p =>
    { p with nextIdx := r.nextIdx, matched := subU64 r.nextIdx 1 }).role = .leader := hr
  have e1 : (s.setPeer (.member r.src) fun p =>
    { p with nextIdx := r.nextIdx, matched := subU64 r.nextIdx 1 }).term = s.term := rfl
  generalize (s.setPeer (.member r.src) fun p => { p with nextIdx := r.nextIdx, matched := subU64 r.nextIdx 1 }) = s1 at t1 r1 e1
  obtain ⟨t2, r2, e2⟩ := commit_T (n := commitTarget s1) t1.1 fun hq => backed_target t1.1 (by omega)
  rw [run_bind]
  rcases hc : commit (commitTarget s1) s1 with ⟨e | u, s2⟩
  · rw [hc] at t2 r2 e2; exact ⟨t1.trans t2, r2.trans r1, e2.trans e1⟩
  rw [hc] at t2 r2 e2
  have h : Pres (QL cs H i pre) (do
      let p ← getPeer (.member r.src)
      modPeer (.member r.src) fun p => { p with pending := false }
      let s ← get
      pure (p.pending || decide (r.nextIdx < s.log.next)) : R Bool) := by
    pres (QL.po) using lx_getPeer cs, lx_modPeer cs
    exact ⟨rfl, rfl⟩
  obtain ⟨t3, r3, e3⟩ := h s2 t2.1 (r2.trans r1)
  exact ⟨(t1.trans t2).trans t3, r3, e3.trans (e2.trans e1)⟩

omit hm in
theorem ql_sendMore (k : Int) (b : Bool) : Pres (QL cs H i pre) (sendMore k b) := by
  intro s g hr
  unfold sendMore
  rw [bind_get]
  split
  · exact ql_requestAppendTo k s g hr
  · exact QL.po.refl s g hr

theorem handleAppendResp_L {s : Srv} {r : Resp} (g : Good cs H i pre s) (hr : s.role = .leader) (h1 : (r.src, .reply r) ∈ H)
    (h2 : r.type = .appendResp) (h3 : r.accepted = true) (h4 : 0 < r.nextIdx) :
    T cs H i pre s (handleAppendResp r s).2 ∧ (handleAppendResp r s).2.role = .leader ∧
      (handleAppendResp r s).2.term = s.term := by
  unfold handleAppendResp
  rw [bind_get]
  by_cases hp : (s.findPeer r.src).isNone = true
  · rw [if_pos hp]; exact QL.po.refl s g hr
  rw [if_neg hp, if_pos h3]
  obtain ⟨t1, r1, e1⟩ := acceptedResp_L g hr h1 h2 h3 h4
  show T cs H i pre s ((acceptedResp r >>= sendMore r.src) s).2 ∧ ((acceptedResp r >>= sendMore r.src) s).2.role = .leader ∧
    ((acceptedResp r >>= sendMore r.src) s).2.term = s.term
  rw [run_bind]
  rcases hc : acceptedResp r s with ⟨e | b, s1⟩
  · rw [hc] at t1 r1 e1; exact ⟨t1, r1, e1⟩
  · rw [hc] at t1 r1 e1
    obtain ⟨t2, r2, e2⟩ := ql_sendMore (cs := cs) (H := H) (i := i) (pre := pre) r.src b s1 t1.1 r1
    exact ⟨t1.trans t2, r2, e2.trans e1⟩

/-- The leader stays leader of its term. -/
theorem confirmed_L {s : Srv} {ty : MsgType} {r : Resp} (g : Good cs H i pre s) (hr : s.role = .leader)
    (h1 : (r.src, .reply r) ∈ H) (h2 : r.type = .appendResp) (h3 : r.accepted = true) (h4 : 0 < r.nextIdx)
    (h5 : r.term = s.term) : T cs H i pre s ((Input.peerResp ty r).run s).2 ∧ ((Input.peerResp ty r).run s).2.role = .leader ∧
      ((Input.peerResp ty r).run s).2.term = s.term := by
  have key : ∀ s1 : Srv, Good cs H i pre s1 → s1.role = .leader → s1.term = s.term → T cs H i pre s1 (handlePeerResp r s1).2 ∧
      (handlePeerResp r s1).2.role = .leader ∧ (handlePeerResp r s1).2.term = s1.term := by
    intro s1 g1 r1 e1
    unfold handlePeerResp
    rw [bind_get]
    by_cases hp : (s1.findPeer r.src).isNone = true
    · rw [if_pos hp]; exact QL.po.refl s1 g1 r1
    rw [if_neg hp, bind_modPeer]
    have st := still_setPeer s1 (.member r.src) (fun p => { p with lastResp := s1.now }) (fun _ => ⟨rfl, rfl⟩)
    have t2 := st.T (cs := cs) (H := H) (i := i) (pre := pre) (es := []) (List.append_nil _).symm (by simp) g1
    have r2 := st.role
    have e2 := st.term
    generalize (s1.setPeer (.member r.src) fun p => { p with lastResp := s1.now }) = s2 at t2 r2 e2
    rw [run_bind_ok (run_updateTerm_le (by omega))]
    have hd : dispatchResp r s2 = handleAppendResp r s2 := by unfold dispatchResp; rw [h2]
    show T cs H i pre s1 (dispatchResp r s2).2 ∧ (dispatchResp r s2).2.role = .leader ∧ (dispatchResp r s2).2.term = s1.term
    rw [hd]
    obtain ⟨t3, r3, e3⟩ := handleAppendResp_L t2.1 (r2.trans r1) h1 h2 h3 h4
    exact ⟨t2.trans t3, r3, e3.trans e2⟩
  have h : Pres (fun a b => a = s → QL cs H i pre a b)
      (rpcResult (.member r.src) ty true >>= fun _ => handlePeerResp r) := by
    rintro _ rfl g hr
    obtain ⟨t1, r1, e1⟩ := lx_rpcResult (Q := QL cs H i pre) cs (.member r.src) ty true _ g hr
    rw [run_bind]
    rcases hc : rpcResult (.member r.src) ty true _ with ⟨e | u, s1⟩
    · rw [hc] at t1 r1 e1; exact ⟨t1, r1, e1⟩
    · rw [hc] at t1 r1 e1
      obtain ⟨t2, r2, e2⟩ := key s1 t1.1 r1 e1
      exact ⟨t1.trans t2, r2, e2.trans e1⟩
  exact h s rfl g hr
end


/-! ## The records of leaders -/

section
variable {cs : List SrvCfg} {H : History} {i : Int}

/-- If the server is leader, then its records are backed by answers of its term. -/
def ToldOk (H : History) (s : Srv) : Prop :=
  s.role = .leader → ∀ k ∈ s.peers.map Peer.key, ∀ n, 0 < n → n ≤ k.2 → Acked (keepAcks (ofTerm s.term) H) k.1.id n

theorem ToldOk.mono {H' : History} {s : Srv} (h : ∀ x ∈ H, x ∈ H') (ht : ToldOk H s) : ToldOk H' s := by
  intro hr k hk n h0 hn
  obtain ⟨r, h1, h2⟩ := ht hr k hk n h0 hn
  exact ⟨r, keepAcks_mono h h1, h2⟩

variable [hm : Member cs i]
include hm

/-- One input. -/
theorem ToldOk.input {s : Srv} {x : Input} {pre : List Entry} (ht : ToldOk H s) (g : Good cs H i pre s) (ha : Allowed cs H i x)
    (hx : Timely s x) (hf : Fresh s (x.run { s with trace := [] }).2.trace) :
    ToldOk H (x.run { s with trace := [] }).2 := by
  have st : Still s { s with trace := [] } :=
    ⟨rfl, rfl, rfl, rfl, rfl, rfl, rfl, rfl, rfl, rfl, rfl, rfl, rfl, fun h => h, rfl, rfl⟩
  have tr : ({ s with trace := [] } : Srv).trace = [] := rfl
  generalize ({ s with trace := [] } : Srv) = s0 at st hf tr
  have g0 := st.good g
  intro hr
  by_cases hc : x.confirms = true
  · cases x with
    | peerResp ty r =>
      have hc : (r.type == .appendResp && r.accepted) = true := hc
      rw [Bool.and_eq_true, beq_iff_eq] at hc
      obtain ⟨h1, h2⟩ := hx hc.1 hc.2
      have ha' := ha.2 hc.2
      have := confirmed_L (ty := ty) (st.good (g.keepAcks (ht h1))) (st.role.trans h1)
        (keepAcks_ack ha'.1 (by unfold ofTerm; rw [h2]; simp)) hc.1 hc.2 (ha'.2.2 hc.1) (h2.trans st.term.symm)
      rw [this.2.2, st.term]
      exact this.1.1.matched
    | _ => cases hc
  · have hn : ∀ f : Resp → Bool, Allowed cs (keepAcks f H) i x := fun f => ha.keepAcks fun ty r e h1 h2 => by
      subst e
      exact absurd (show (r.type == .appendResp && r.accepted) = true by rw [h1, h2]; rfl) hc
    obtain ⟨_, es, h1, p, _⟩ := allowed_T g0 ha
    rw [tr, List.nil_append] at h1
    rcases p.leader hr with ⟨t, hl⟩ | ⟨h2, h3⟩
    · rw [h1] at hf
      have hz := hf ⟨t, (List.mem_filter.1 hl).1⟩
      have g1 : Good cs (keepAcks (fun _ => false) H) i pre s := g.keepAcks fun k hk n h0 hle => by
        obtain ⟨p, hp, rfl⟩ := List.mem_map.1 hk
        have h5 : n ≤ p.matched := hle
        rw [hz p hp] at h5
        omega
      refine ((allowed_T (st.good g1) (hn _)).1.mono fun y hy => ?_).matched
      obtain ⟨j, e⟩ := y
      refine List.mem_filter.2 ⟨keepAcks_sub hy, ?_⟩
      have h6 := (List.mem_filter.1 hy).2
      cases e with
      | reply r =>
        replace h6 : (!(r.type == .appendResp && r.accepted && !false)) = true := h6
        show (!(r.type == .appendResp && r.accepted && !ofTerm _ r)) = true
        rw [Bool.not_false, Bool.and_true, Bool.not_eq_true'] at h6
        rw [h6]; rfl
      | _ => rfl
    · have h2 : s0.role = .leader := h2
      have h3 : (x.run s0).2.term = s0.term := h3
      rw [h3, st.term]
      exact (allowed_T (st.good (g.keepAcks (ht (st.role.symm.trans h2)))) (hn _)).1.matched
end

/-- The end of a snapshot has to do with the log only. -/
theorem snapDone_rest {s : Srv} {snp : Snap} {ok : Bool} :
    ((Input.snapDone snp ok).run s).2.role = s.role ∧ ((Input.snapDone snp ok).run s).2.term = s.term ∧
    ((Input.snapDone snp ok).run s).2.peers = s.peers ∧
    ∃ es, ((Input.snapDone snp ok).run s).2.trace = s.trace ++ es ∧ ∀ e ∈ es, kept e = false := by
  cases ok with
  | false => exact ⟨rfl, rfl, rfl, [], (List.append_nil _).symm, fun _ h => (by cases h)⟩
  | true =>
    by_cases hr : s.params.reserved < snp.lastIdx
    · rw [run_snapDone_some hr, run_bind]
      rcases logCompact_cases (snp.lastIdx - s.params.reserved) (s.snapped snp) with ⟨_, h1⟩ | ⟨_, _, h1⟩ | ⟨_, _, h1⟩
      · rw [h1]
        exact ⟨rfl, rfl, rfl, _, rfl, fun e h => by rw [List.mem_singleton.1 h]; rfl⟩
      · rw [h1]
        refine ⟨rfl, rfl, rfl, _, List.append_assoc _ _ _, fun e h => ?_⟩
        rcases List.mem_append.1 h with h | h <;> rw [List.mem_singleton.1 h] <;> rfl
      · rw [h1]
        exact ⟨rfl, rfl, rfl, _, rfl, fun e h => by rw [List.mem_singleton.1 h]; rfl⟩
    · rw [run_snapDone_none hr]
      exact ⟨rfl, rfl, rfl, _, rfl, fun e h => by rw [List.mem_singleton.1 h]; rfl⟩

theorem ToldOk.snap {H : History} {s : Srv} {snp : Snap} {ok : Bool} (h : ToldOk H s) :
    ToldOk H ((Input.snapDone snp ok).run { s with trace := [] }).2 := by
  obtain ⟨h1, h2, h3, _⟩ := snapDone_rest (s := { s with trace := [] }) (snp := snp) (ok := ok)
  intro hr
  rw [h3, h2]
  rw [h1] at hr
  exact h hr

/-! ## Executions -/

variable {C : Cluster} {w w' : World}

/-- The records of all leaders. -/
def Told (C : Cluster) (w : World) : Prop := ∀ i ∈ C.ids, ∀ s, (w.node i).up = some s → ToldOk (hist w) s

theorem acked_confirmed {v : Int} {t n : Nat} (h : Acked (keepAcks (ofTerm t) (hist w)) v n) : Confirmed w.evs v t n := by
  obtain ⟨r, h1, h2, h3, h4⟩ := h
  obtain ⟨_, ev, e1, e2, e3⟩ := mem_hist.1 (keepAcks_sub h1)
  have := keepAcks_of h1 h2 h3
  exact ⟨ev, e1, e2, r, e3, h2, h3, by unfold ofTerm at this; simpa using this, h4⟩

/-- A leader that raises its commit index is allowed to. -/
theorem Told.backed (hC : C.OkS) {ps : Int → PS} {gh : Ghost} (h : Inv C w ps gh) (ht : Told C w) {i : Int} {s : Srv}
    {x : Input} {es1 es2 : List Eff} {n : Nat} (hi : i ∈ C.ids) (hs : (w.node i).up = some s) (hd : Deliver w.evs i x)
    (hns : ∀ m, x = .req m → m.type ≠ .snpReq)
    (hx : Timely s x) (hpre : es1 ++ .advance n :: es2 <+: (x.run { s with trace := [] }).2.trace)
    (hr : ∀ m, x = .req m → m.type ≠ .appendReq)
    (hown : ((C.diskAt (w.evs ++ es1.map fun e => ⟨i, some x, e⟩) i).log.get? n).map Entry.term =
      some (C.diskAt (w.evs ++ es1.map fun e => ⟨i, some x, e⟩) i).term) :
    C.Backed (w.evs ++ es1.map fun e => ⟨i, some x, e⟩) i n := by
  have hm : Member C.servers i := ⟨hC.nodup, hi, fun he => hC.named (he ▸ hi)⟩
  obtain ⟨pre, hn⟩ := h.linked.nodes i hi
  obtain ⟨g, ab⟩ := hn.up s hs
  have ha := h.linked.allowed hC h.safe.logs.votes hd hns
  obtain ⟨g1, p, hhigh, _, _⟩ := input_path (d := (w.node i).disk) (by rw [ab]; exact hn.disk) g ha
  rw [ab] at p
  obtain ⟨rest, hrest⟩ := id hpre
  rw [← hrest, List.append_assoc, List.filter_append] at p
  obtain ⟨c1, p1, p2⟩ := p.split rfl
  have hd1 := path_disk' p1 (fun k y hy => hhigh k y (hpre.subset (List.mem_append.2 (.inl hy)))) hn.disk
  rw [h.linked.disks i] at hd1
  have hdisk : C.diskAt (w.evs ++ es1.map fun e => (⟨i, some x, e⟩ : Ev)) i = (C.diskAt w.evs i).afterAll es1 := by
    rw [diskAt_snoc, if_pos rfl]
  rw [← hdisk] at hd1
  have hkept : es1.filter kept = es1.filter core := filter_kept (path_kept p1)
  unfold Cluster.Backed
  rw [hd1.term]
  by_cases hp : s.peers = []
  · have hlen := g.count
    rw [hp] at hlen
    have hlen : C.ids.length = 1 := hlen.symm
    have only : ∀ j ∈ C.ids, j = i := by
      intro j hj
      obtain ⟨a, ha⟩ := List.length_eq_one_iff.1 hlen
      rw [ha] at hi hj
      rw [List.mem_singleton.1 hi, List.mem_singleton.1 hj]
    refine ⟨?_, by rw [hown, hd1.term], [i], ⟨by simp, fun v hv => by rw [List.mem_singleton.1 hv]; exact hi, by
      rw [hlen]; simp⟩, fun v hv => .inl (List.mem_singleton.1 hv)⟩
    obtain ⟨g', _, hsafe⟩ := p1.safe hC.named hi (fun _ h => h) rfl h.safe
    rw [hd1.term] at hown
    obtain ⟨e, he, het⟩ := Option.map_eq_some_iff.1 hown
    have hlt := (Log.get?_lt he).1
    have hst := hd1.start
    rw [get?_cut hst hlt, ← hd1.log] at he
    have hlin := (hsafe.logs.srv i).lin (n - 1) e (by rw [upd_self]; exact he)
    rw [upd_self, het] at hlin
    have hled : Led (hist w ++ (es1.filter core).map fun e => (i, e)) c1.term := by
      by_cases hl : Led (hist w ++ (es1.filter core).map fun e => (i, e)) c1.term
      · exact hl
      · rw [hsafe.logs.ghost.none hl] at hlin
        have h1 := hlin.length_le
        rw [List.length_take, List.length_nil] at h1
        have h2 : n - 1 < c1.log.length := getElem?_lt he
        omega
    obtain ⟨j, hj⟩ := hled
    have hji := only j (hsafe.logs.votes.mem hj)
    rw [← hkept, ← hist_snoc (n := w.node) (x := some x)] at hj
    obtain ⟨_, ev, e1, e2, e3⟩ := mem_hist.1 hj
    exact ⟨ev, e1, e2.trans hji, e3⟩
  · have hadv : .advance n ∈ (x.run { s with trace := [] }).2.trace := hpre.subset (by simp)
    have hc : x.confirms = true := by
      cases hc : x.confirms with
      | true => rfl
      | false =>
        obtain ⟨es, d1, d2⟩ := allowed_idle (s := { s with trace := [] }) ha hp hc hr
        rw [d1] at hadv
        exact absurd hadv (d2 n)
    cases x with
    | peerResp ty r =>
      have hc : (r.type == .appendResp && r.accepted) = true := hc
      rw [Bool.and_eq_true, beq_iff_eq] at hc
      obtain ⟨h1, h2⟩ := hx hc.1 hc.2
      have ha' := ha.2 hc.2
      have st : Still s { s with trace := [] } :=
        ⟨rfl, rfl, rfl, rfl, rfl, rfl, rfl, rfl, rfl, rfl, rfl, rfl, rfl, fun h => h, rfl, rfl⟩
      obtain ⟨t2, _, e2⟩ := confirmed_L (ty := ty) (st.good (g.keepAcks (ht i hi s hs h1))) h1
        (keepAcks_ack ha'.1 (by unfold ofTerm; rw [h2]; simp)) hc.1 hc.2 (ha'.2.2 hc.1) h2
      obtain ⟨es, a1, a2⟩ := (appendResp_adv (ty := ty) hc.1 { s with trace := [] }).trace
      have a1 : ((Input.peerResp ty r).run { s with trace := [] }).2.trace = es := a1
      rw [a1] at hadv
      obtain ⟨h0, hmaj⟩ := a2 n hadv
      obtain ⟨V, v1, v2, v3, v4⟩ := backed_majority t2.1 h0 hmaj
      have hterm : c1.term = s.term := by
        have b1 := p1.term_le
        have b2 := p2.term_le
        rw [← ab] at b1
        have b1 : s.term ≤ c1.term := b1
        have b2 : c1.term ≤ ((Input.peerResp ty r).run { s with trace := [] }).2.term := b2
        rw [e2] at b2
        exact Nat.le_antisymm b2 b1
      rw [hterm]
      refine ⟨?_, by rw [hown, hd1.term, hterm], V, ⟨v1, v2, v3⟩, fun v hv => ?_⟩
      · obtain ⟨_, _, hl, _⟩ := h.leads hi ⟨s, hs, h1, rfl⟩
        obtain ⟨_, ev, e3, e4⟩ := mem_hist.1 hl
        exact ⟨ev, List.mem_append.2 (.inl e3), e4⟩
      · rcases v4 v hv with ⟨v5, _⟩ | v5
        · exact .inl v5
        · exact .inr (acked_confirmed v5).more
    | _ => cases hc

theorem Told.init : Told C C.init := fun i _ s hs => by cases hs

theorem Told.step (hC : C.OkS) {ps : Int → PS} {gh : Ghost} (h : Inv C w ps gh) (ht : Told C w) {i : Int} {x : Option Input}
    {es : List Eff} {n : Node} (hi : i ∈ C.ids) (hd : ∀ y, x = some y → DeliverT w.evs i y)
    (hP : ∀ s y, (w.node i).up = some s → x = some y → Timely s y ∧ Fresh s es)
    (st : (w.node i).Step (C.setup i) x es n) :
    Told C ⟨fun k => if k = i then n else w.node k, w.evs ++ es.map fun e => ⟨i, x, e⟩⟩ := by
  have hm : Member C.servers i := ⟨hC.nodup, hi, fun he => hC.named (he ▸ hi)⟩
  intro k hk s' hs'
  rw [hist_snoc]
  have grow : ∀ y ∈ hist w, y ∈ hist w ++ (es.filter kept).map fun e => (i, e) := fun y hy => List.mem_append.2 (.inl hy)
  by_cases hki : k = i
  · subst hki
    simp only [if_true] at hs'
    obtain ⟨pre, hn⟩ := h.linked.nodes k hi
    have hup : ∀ s, (w.node k).up = some s → Good C.servers (hist w) k pre s := fun s hs => (hn.up s hs).1
    have htk := ht k hi
    have one : ∀ s y, (w.node k).up = some s → x = some y → Timely s y →
        Fresh s (y.run { s with trace := [] }).2.trace → ToldOk (hist w) (y.run { s with trace := [] }).2 := by
      intro s y hs hy h1 h2
      cases hd y hy with
      | plain a b => exact (htk s hs).input (hup s hs) (h.linked.allowed hC h.safe.logs.votes a b) h1 h2
      | snapped => exact (htk s hs).snap
    rcases hw : w.node k with ⟨d, up⟩
    rw [hw] at st hP one
    refine ToldOk.mono grow ?_
    cases st with
    | @run _ s s1 x hr =>
      cases hs'
      have hp := hP s x rfl rfl
      have := one s x rfl rfl hp.1 (by rw [hr]; exact hp.2)
      rw [hr] at this
      exact this
    | @survive _ s s1 x hr =>
      cases hs'
      have hp := hP s x rfl rfl
      have := one s x rfl rfl hp.1 (by rw [hr]; exact hp.2)
      rw [hr] at this
      exact this
    | crash => cases hs'
    | boot =>
      cases hs'
      intro hr
      cases hr
  · simp only [if_neg hki] at hs'
    exact (ht k hk s' hs').mono grow

theorem TOnly.treach {P : Int → Srv → Input → List Eff → Prop} (h : C.TOnly P w) : C.TReach w := by
  induction h with
  | init => exact .init
  | step _ hi hd hw _ st ih => exact .step ih (.mk hi hd hw st)

/-- Leaders are careful. -/
theorem TOnly.careful (hC : C.OkS) (h : C.TOnly (fun _ s x es => Timely s x ∧ Fresh s es) w)
    (hown : C.OwnEntries w.evs) (hf : CarefulFollowers w.evs) : Told C w ∧ C.CarefulLeaders w.evs := by
  induction h with
  | init => exact ⟨Told.init, fun E1 ev E2 n he => by cases E1 <;> cases he⟩
  | @step w i x es nd h0 hi hd hw hP st ih =>
    have hf0 : CarefulFollowers w.evs := fun ev he => hf ev (List.mem_append.2 (.inl he))
    obtain ⟨told, care⟩ := ih hown.prefix hf0
    obtain ⟨hsr, _⟩ := TReach.sreach hC (TOnly.treach h0) ⟨care, hf0⟩
    obtain ⟨ps, gh, hinv⟩ := reach_inv hC hsr
    refine ⟨told.step hC hinv hi hd hP st, ?_⟩
    have key : ∀ es1 ev E2 n, (es.map fun e => (⟨i, x, e⟩ : Ev)) = es1 ++ ev :: E2 → ev.eff = .advance n →
        (∀ m, ¬ ev.Following m) → C.Backed (w.evs ++ es1) ev.node n := by
      intro F1 ev F2 n he hev hf
      obtain ⟨es1, rest, r1, r2, r3⟩ := List.map_eq_append_iff.1 he
      obtain ⟨e, es2, q1, q2, q3⟩ := List.map_eq_cons_iff.1 r3
      subst q1 r2 q2
      have hev : e = .advance n := hev
      subst hev
      have ho := hown (w.evs ++ es1.map fun e => ⟨i, x, e⟩) ⟨i, x, .advance n⟩ F2 n
        (by simp only []; rw [he, List.append_assoc]) rfl hf
      have hlist : es = es1 ++ .advance n :: es2 := r1
      have hstep : ∃ s y, (w.node i).up = some s ∧ x = some y ∧ es <+: (y.run { s with trace := [] }).2.trace := by
        rcases hw : w.node i with ⟨d, up⟩
        rw [hw] at st
        cases st with
        | @run _ s s1 x hr => exact ⟨s, x, rfl, rfl, by rw [hr]; exact List.prefix_refl _⟩
        | @survive _ s s1 x hr => exact ⟨s, x, rfl, rfl, by rw [hr]; exact List.prefix_refl _⟩
        | @crash _ s x es hpre => exact ⟨s, x, rfl, rfl, hpre⟩
        | boot => cases es1 <;> cases hlist
      obtain ⟨s, y, hs, rfl, hpre⟩ := hstep
      cases hd y rfl with
      | plain a b =>
        refine told.backed hC hinv hi hs a b (hP s y hs rfl).1 (by rw [← hlist]; exact hpre) ?_ ho
        intro m hm hty
        exact hf m ⟨by rw [hm], hty⟩
      | @snapped snp ok =>
        obtain ⟨_, _, _, fx, t1, t2⟩ := snapDone_rest (s := { s with trace := [] }) (snp := snp) (ok := ok)
        rw [t1] at hpre
        have := t2 (.advance n) (hpre.subset (by rw [hlist]; simp))
        cases this
    intro E1 ev E2 n he hev hf
    rcases List.append_eq_append_iff.1 he with ⟨a, a1, a2⟩ | ⟨a, a1, a2⟩
    · subst a1
      exact key a ev E2 n a2 hev hf
    · cases a with
      | nil =>
        rw [List.append_nil] at a1
        have := key [] ev E2 n a2.symm hev hf
        rw [List.append_nil, a1] at this
        exact this
      | cons b a =>
        cases a2
        exact care E1 ev a n a1 hev hf

end Cs.Raft.Cut
