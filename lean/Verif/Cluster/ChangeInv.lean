import Verif.Cluster.Change
import Verif.Cluster.WideInv
import Verif.Raft.Mute

/-!
# What holds while the members change

For executions in which no server is invited: the history of every server is one of `Hist`; vote requests carry the id of their
sender; answers are answers to the request; and a server that took the lead had been granted the votes of more than half as many
servers as it has in its configuration.
-/

namespace Cs.Raft
open Cs

variable {C : Cluster} {w w' : World}

theorem DeliverC.mono {E E' : List Ev} {i : Int} {x : Input} (hs : ∀ e ∈ E, e ∈ E') (h : DeliverC E i x) : DeliverC E' i x := by
  cases h with
  | request h1 h2 h3 => exact .request (hs _ h1) h2 h3
  | client h1 h2 => exact .client h1 h2
  | add h1 h2 => exact .add h1 h2
  | remove h1 h2 => exact .remove h1 h2
  | answer h1 h2 h3 h4 h5 h6 h7 h8 => exact .answer (hs _ h1) h2 h3 h4 (hs _ h5) h6 h7 h8
  | member h1 h2 h3 h4 h5 h6 h7 h8 => exact .member (hs _ h1) h2 h3 h4 (hs _ h5) h6 h7 h8
  | joining h1 h2 h3 h4 h5 h6 h7 h8 => exact .joining (hs _ h1) h2 h3 h4 (hs _ h5) h6 h7 h8
  | failed h1 h2 h3 h4 => exact .failed (hs _ h1) h2 h3 h4
  | memberFailed h1 h2 h3 h4 => exact .memberFailed (hs _ h1) h2 h3 h4
  | joiningFailed h1 h2 h3 h4 => exact .joiningFailed (hs _ h1) h2 h3 h4
  | retry h1 h2 h3 => exact .retry (hs _ h1) h2 h3
  | election => exact .election
  | heartbeat => exact .heartbeat
  | apply => exact .apply
  | replicate => exact .replicate
  | tick => exact .tick
  | snapped h1 h2 h3 => exact .snapped (hs _ h1) h2 h3

/-- Nobody has been invited. -/
def World.Uninvited (w : World) : Prop := ∀ ev ∈ w.evs, ∀ q, ev.eff = .send q → q.type ≠ .joinReq

theorem Cluster.CRun.evs (h : C.CRun w w') : ∃ E, w'.evs = w.evs ++ E := by
  induction h with
  | refl => exact ⟨[], (List.append_nil _).symm⟩
  | step _ hs ih =>
    obtain ⟨E, h1⟩ := ih
    cases hs with
    | mk _ _ _ => exact ⟨E ++ _, by rw [← List.append_assoc, ← h1]⟩

theorem Cluster.CRun.trans {a b c : World} (h1 : C.CRun a b) (h2 : C.CRun b c) : C.CRun a c := by
  induction h2 with
  | refl => exact h1
  | step _ hs ih => exact .step ih hs

theorem World.Uninvited.before (h : w'.Uninvited) (hr : C.CRun w w') : w.Uninvited := by
  obtain ⟨E, he⟩ := hr.evs
  exact fun ev hev => h ev (by rw [he]; exact List.mem_append_left _ hev)

/-- The vote of `v` for server `i` in term `t`, as it reached `i`. -/
def AnsweredC (E : List Ev) (i : Int) (t : Nat) (v : Int) : Prop :=
  ∃ ty r, DeliverC E i (.peerResp ty r) ∧ r.type = .voteResp ∧ r.accepted = true ∧ r.term = t ∧ r.src = v

structure CInv (C : Cluster) (w : World) : Prop where
  hist : ∀ i ∈ C.ids, ∃ xs, Hist (C.setup i) (Node.fresh (C.config i)) xs (effsOf w.evs i) (w.node i) ∧
    ∀ x ∈ xs, DeliverC w.evs i x
  synced : ∀ i ∈ C.ids, (w.node i).Synced (C.setup i)
  node : ∀ ev ∈ w.evs, ev.node ∈ C.ids
  asked : ∀ ev ∈ w.evs, ∀ q, ev.eff = .send q → q.type = .voteReq → q.src = ev.node
  replies : ∀ ev ∈ w.evs, ∀ q a, ev.cause = some (.req q) → ev.eff = .reply a →
    ∃ s1 s2 : Srv, s1.id = ev.node ∧ processReq q s1 = (.ok a, s2)

theorem CInv.input (hC : C.Named) (h : CInv C w) (hu : w.Uninvited) {i : Int} {x : Input} (hx : DeliverC w.evs i x) :
    x.isJoin = false ∧ x.named := by
  cases hx with
  | @request ev m h1 h2 h3 =>
    refine ⟨?_, fun hv => ?_⟩
    · show (m.type == .joinReq) = false
      have := hu _ h1 m h2
      cases hm : m.type <;> first | rfl | exact absurd hm this
    · rw [h.asked _ h1 m h2 hv]
      exact fun hc => hC.named (hc ▸ h.node _ h1)
  | @client m h1 h2 =>
    refine ⟨?_, fun hv => ?_⟩
    · show (m.type == .joinReq) = false
      rw [h1]; rfl
    · rw [h1] at hv; cases hv
  | @add m _ _ h1 h2 =>
    refine ⟨?_, fun hv => ?_⟩
    · show (m.type == .joinReq) = false
      rw [h1]; rfl
    · rw [h1] at hv; cases hv
  | @remove m _ _ h1 h2 =>
    refine ⟨?_, fun hv => ?_⟩
    · show (m.type == .joinReq) = false
      rw [h1]; rfl
    · rw [h1] at hv; cases hv
  | _ => exact ⟨rfl, trivial⟩

theorem CInv.init : CInv C C.init where
  hist := fun i _ => ⟨[], .nil, fun _ h => (by cases h)⟩
  synced := fun i _ s h => (by cases h)
  node := fun _ h => (by cases h)
  asked := fun _ h => (by cases h)
  replies := fun _ h => (by cases h)

/-- Requests for votes name the server that sends them. -/
theorem VPath.asks {nm : Prop} {id : Int} {a b : Nat × Int} {es : List Eff} (h : VPath nm id a es b) {q : Req} (hq : .send q ∈ es)
    (ht : q.type = .voteReq) : q.src = id := by
  induction h with
  | nil => cases hq
  | cons h1 _ ih =>
    rcases List.mem_cons.1 hq with e | hq
    · cases h1 with
      | ask _ _ h4 => cases e; exact h4
      | other hn => rw [← e] at hn; exact absurd ht hn
      | _ => cases e
    · exact ih hq

theorem CInv.step (hC : C.Named) (h : CInv C w) (hu : w.Uninvited) (hs : C.CStep w w') : CInv C w' := by
  cases hs with
  | @mk i x es n hi hd hst =>
  have hsub : ∀ e ∈ w.evs, e ∈ w.evs ++ es.map fun e => (⟨i, x, e⟩ : Ev) := fun e he => List.mem_append_left _ he
  obtain ⟨v1, v2⟩ := Node.Step.vpath (nm := True) (h.synced i hi) hst fun y hy =>
    ⟨(h.input hC hu (hd y hy)).1, fun _ => (h.input hC hu (hd y hy)).2⟩
  refine ⟨fun j hj => ?_, fun j hj => ?_, fun ev hev => ?_, fun ev hev => ?_, fun ev hev => ?_⟩
  · obtain ⟨xs, h1, h2⟩ := h.hist j hj
    by_cases hij : j = i
    · subst hij
      refine ⟨xs ++ x.toList, ?_, fun y hy => ?_⟩
      · show Hist _ _ _ (effsOf (w.evs ++ es.map fun e => (⟨j, x, e⟩ : Ev)) j) (if j = j then n else w.node j)
        rw [effsOf_same, if_pos rfl]
        exact .step h1 hst
      · rcases List.mem_append.1 hy with hy | hy
        · exact (h2 y hy).mono hsub
        · cases x with
          | none => cases hy
          | some z => rw [List.mem_singleton.1 hy]; exact (hd z rfl).mono hsub
    · refine ⟨xs, ?_, fun y hy => (h2 y hy).mono hsub⟩
      show Hist _ _ _ (effsOf (w.evs ++ es.map fun e => (⟨i, x, e⟩ : Ev)) j) (if j = i then n else w.node j)
      rw [effsOf_other hij, if_neg hij]
      exact h1
  · show (if j = i then n else w.node j).Synced _
    by_cases hij : j = i
    · subst hij; rw [if_pos rfl]; exact v1
    · rw [if_neg hij]; exact h.synced j hj
  · rcases List.mem_append.1 hev with hev | hev
    · exact h.node ev hev
    · obtain ⟨e, he, rfl⟩ := List.mem_map.1 hev
      exact hi
  · rcases List.mem_append.1 hev with hev | hev
    · exact h.asked ev hev
    · obtain ⟨e, he, rfl⟩ := List.mem_map.1 hev
      intro q hq ht
      have hq : e = .send q := hq
      subst hq
      exact v2.asks he ht
  · rcases List.mem_append.1 hev with hev | hev
    · exact h.replies ev hev
    · obtain ⟨e, he, rfl⟩ := List.mem_map.1 hev
      intro q a hq ha
      have ha : e = .reply a := ha
      subst ha
      have hq : x = some (.req q) := hq
      have go : ∀ (s : Srv), (w.node i).up = some s → .reply a ∈ ((Input.req q).run { s with trace := [] }).2.trace →
          ∃ s1 s2 : Srv, s1.id = i ∧ processReq q s1 = (.ok a, s2) := by
        intro s hup hm
        obtain ⟨q', s', e1, e2⟩ := answer_of_request (s := { s with trace := [] }) rfl hm
        cases e1
        exact ⟨{ s with trace := [] }, s', (h.synced i hi s hup).1, e2⟩
      generalize hn : w.node i = n0 at hst go
      cases hst with
      | run hr => cases hq; exact go _ rfl (by rw [hr]; exact he)
      | survive hr => cases hq; exact go _ rfl (by rw [hr]; exact he)
      | crash hp => cases hq; exact go _ rfl (hp.subset he)
      | boot => cases hq

theorem Cluster.CRun.inv (hC : C.Named) (h : CInv C w) (hr : C.CRun w w') (hu : w'.Uninvited) : CInv C w' := by
  induction hr with
  | refl => exact h
  | step hr hs ih =>
    have hu' := hu.before (.step .refl hs)
    exact (ih hu').step hC hu' hs

theorem Cluster.CReach.inv (hC : C.Named) (hr : C.CReach w) (hu : w.Uninvited) : CInv C w := Cluster.CRun.inv hC CInv.init hr hu

/-- A vote that reached the candidate was asked for by it and announced by the voter. -/
theorem CInv.voter (h : CInv C w) {i v : Int} {t : Nat} (ha : AnsweredC w.evs i t v) : v ∈ C.ids ∧
    (∃ e ∈ effsOf w.evs v, e.vote? = some (t, i)) ∧ ∃ e ∈ effsOf w.evs i, e.vote? = some (t, i) := by
  obtain ⟨ty, r, hd, h1, h2, h3, h4⟩ := ha
  generalize hx : Input.peerResp ty r = x at hd
  cases hd with
  | @answer e1 e2 q r' g1 g2 g3 g4 g5 g6 g7 g8 =>
    injection hx with _ hx
    subst hx
    obtain ⟨s1, s2, hid, hp⟩ := h.replies _ g5 _ _ g7 g8
    obtain ⟨f1, f2, f3, f4⟩ := (answer_facts hp).2 h1 h2
    have a1 := h.asked _ g1 q g3 f1
    have hv : e2.node = v := by rw [← hid, ← f2, h4]
    refine ⟨hv ▸ h.node _ g5, ⟨e2.eff, mem_effsOf.2 ⟨e2, g5, hv, rfl⟩, ?_⟩, ⟨e1.eff, mem_effsOf.2 ⟨e1, g1, g2, rfl⟩, ?_⟩⟩
    · rw [g8]
      show (if r.type = .voteResp ∧ r.accepted = true then some (r.term, r.dst) else none) = _
      rw [if_pos ⟨h1, h2⟩, h3, f3, a1, g2]
    · rw [g3]
      show (if q.type = .voteReq then some (q.term, q.src) else none) = _
      rw [if_pos f1, ← f4, h3, a1, g2]
  | _ => cases hx

/-- No server announces votes for two servers in one term. -/
theorem CInv.oneVote (hC : C.Named) (h : CInv C w) (hu : w.Uninvited) {v a b : Int} {t : Nat} (hv : v ∈ C.ids) {e e' : Eff}
    (he : e ∈ effsOf w.evs v) (he' : e' ∈ effsOf w.evs v) (h1 : e.vote? = some (t, a)) (h2 : e'.vote? = some (t, b)) : a = b := by
  obtain ⟨xs, g1, g2⟩ := h.hist v hv
  exact one_vote_per_term_partial g1 (fun hc => hC.named (hc ▸ hv)) (fun y hm => h.input hC hu (g2 y hm)) he he' h1 h2

end Cs.Raft
