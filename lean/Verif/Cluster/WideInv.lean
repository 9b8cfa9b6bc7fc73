import Verif.Cluster.Wide
import Verif.Cluster.Proto
import Verif.Raft.Held
import Verif.Raft.PropsLeader
import Verif.Raft.PropsVote

/-!
# What holds in every state of a cluster that takes snapshots

The history of every server is one of `Hist`, with the inputs of `DeliverW`; configurations always name the members; answers
are answers to the request; and a server that took the lead had been granted the votes of a majority.
-/

namespace Cs.Raft
open Cs

theorem Deliver.mono {E E' : List Ev} {i : Int} {x : Input} (hs : ∀ e ∈ E, e ∈ E') (h : Deliver E i x) : Deliver E' i x := by
  cases h with
  | request h1 h2 h3 => exact .request (hs _ h1) h2 h3
  | client h1 h2 => exact .client h1 h2
  | answer h1 h2 h3 h4 h5 h6 h7 h8 => exact .answer (hs _ h1) h2 h3 h4 (hs _ h5) h6 h7 h8
  | prevoted h1 h2 h3 h4 h5 h6 h7 h8 => exact .prevoted (hs _ h1) h2 h3 h4 (hs _ h5) h6 h7 h8
  | failed h1 h2 h3 h4 => exact .failed (hs _ h1) h2 h3 h4
  | prefailed h1 h2 h3 h4 => exact .prefailed (hs _ h1) h2 h3 h4
  | election => exact .election
  | heartbeat => exact .heartbeat
  | apply => exact .apply
  | replicate => exact .replicate
  | tick => exact .tick

theorem DeliverW.mono {E E' : List Ev} {i : Int} {x : Input} (hs : ∀ e ∈ E, e ∈ E') (h : DeliverW E i x) : DeliverW E' i x := by
  cases h with
  | plain h => exact .plain (h.mono hs)
  | snapped h1 h2 h3 => exact .snapped (hs _ h1) h2 h3

/-- The effects of one server. -/
def effsOf (E : List Ev) (i : Int) : List Eff := (E.filter fun ev => decide (ev.node = i)).map Ev.eff

theorem mem_effsOf {E : List Ev} {i : Int} {e : Eff} : e ∈ effsOf E i ↔ ∃ ev ∈ E, ev.node = i ∧ ev.eff = e := by
  unfold effsOf
  rw [List.mem_map]
  constructor
  · rintro ⟨ev, h1, h2⟩
    obtain ⟨h3, h4⟩ := List.mem_filter.1 h1
    exact ⟨ev, h3, of_decide_eq_true h4, h2⟩
  · rintro ⟨ev, h1, h2, h3⟩
    exact ⟨ev, List.mem_filter.2 ⟨h1, decide_eq_true h2⟩, h3⟩

theorem effsOf_same {E : List Ev} {i : Int} {x : Option Input} {es : List Eff} :
    effsOf (E ++ es.map fun e => ⟨i, x, e⟩) i = effsOf E i ++ es := by
  unfold effsOf
  rw [List.filter_append, List.map_append]
  congr 1
  induction es with
  | nil => rfl
  | cons e es ih =>
    rw [List.map_cons, List.filter_cons_of_pos (by simp), List.map_cons, ih]

theorem effsOf_other {E : List Ev} {i j : Int} (hij : j ≠ i) {x : Option Input} {es : List Eff} :
    effsOf (E ++ es.map fun e => ⟨i, x, e⟩) j = effsOf E j := by
  unfold effsOf
  rw [List.filter_append, List.map_append]
  have : (es.map fun e => (⟨i, x, e⟩ : Ev)).filter (fun ev => decide (ev.node = j)) = [] := by
    rw [List.filter_eq_nil_iff]
    intro ev hev
    obtain ⟨e, _, rfl⟩ := List.mem_map.1 hev
    simpa using fun h => hij h.symm
  rw [this]
  exact List.append_nil _

/-- What an answer to a request is. -/
theorem answer_facts {q : Req} {a : Resp} {s s' : Srv} (h : processReq q s = (.ok a, s')) :
    (q.type = .prevoteReq → a.type = .prevoteResp) ∧
    (a.type = .voteResp → a.accepted = true → q.type = .voteReq ∧ a.src = s.id ∧ a.dst = q.src ∧ a.term = q.term) := by
  constructor
  · intro hq
    obtain ⟨r, h1, h2⟩ := prevote_request_pure s q hq
    rw [h] at h1
    cases h1
    exact h2
  · intro ht ha
    rw [run_processReq] at h
    by_cases hq : q.type = .voteReq
    · have hd : dispatch q (s.heard q) = handleVoteReq q (s.heard q) := by unfold dispatch; rw [hq]
      rw [hd, run_handleVoteReq] at h
      split at h
      · rename_i hc
        cases h
        exact ⟨hq, heard_id s q, rfl, hc.1.symm⟩
      · cases h
        cases ha
    · have := ret_dispatch q hq (s.heard q) a (by rw [h])
      exact absurd ht this

variable {C : Cluster} {w w' : World}

/-- The vote of `v` for server `i` in term `t`, as it reached `i`. -/
def Answered (E : List Ev) (i : Int) (t : Nat) (v : Int) : Prop :=
  ∃ ty r, DeliverW E i (.peerResp ty r) ∧ r.type = .voteResp ∧ r.accepted = true ∧ r.term = t ∧ r.src = v

structure WInv (C : Cluster) (w : World) : Prop where
  hist : ∀ i ∈ C.ids, ∃ xs, Hist (C.setup i) (Node.fresh (C.config i)) xs (effsOf w.evs i) (w.node i) ∧
    ∀ x ∈ xs, DeliverW w.evs i x
  held : ∀ i ∈ C.ids, (w.node i).Held C.servers i
  evs : ∀ ev ∈ w.evs, ev.node ∈ C.ids ∧ (ev.eff.Held C.servers ev.node ∨ ∃ a, ev.eff = .reply a)
  replies : ∀ ev ∈ w.evs, ∀ q a, ev.cause = some (.req q) → ev.eff = .reply a →
    ∃ s1 s2 : Srv, s1.id = ev.node ∧ processReq q s1 = (.ok a, s2)
  leads : ∀ ev ∈ w.evs, ∀ t, ev.eff = .lead t → ∃ V : List Int, V.Nodup ∧ C.ids.length < 2 * V.length ∧
    ∀ v ∈ V, v = ev.node ∨ Answered w.evs ev.node t v

theorem WInv.sent (h : WInv C w) {ev : Ev} {m : Req} (he : ev ∈ w.evs) (hm : ev.eff = .send m) :
    m.src = ev.node ∧ m.dst ≠ ev.node ∧ m.type.usual ∧ m.Held C.servers := by
  rcases (h.evs ev he).2 with h1 | ⟨a, h1⟩
  · rw [hm] at h1; exact h1
  · rw [hm] at h1; cases h1

/-- All inputs are such as the properties of a single server require. -/
theorem WInv.input (hC : C.Fine) (h : WInv C w) {i : Int} {x : Input} (hx : DeliverW w.evs i x) :
    x.Held C.servers ∧ x.isJoin = false ∧ x.named := by
  cases hx with
  | snapped h1 h2 h3 =>
    rcases (h.evs _ h1).2 with h4 | ⟨a, h4⟩
    · rw [h3] at h4; exact ⟨h4, rfl, trivial⟩
    · rw [h3] at h4; cases h4
  | plain hx =>
    cases hx with
    | request h1 h2 h3 =>
      rename_i m
      obtain ⟨a1, _, a2, a3⟩ := h.sent h1 h2
      refine ⟨.inr ⟨a2, a3⟩, ?_, fun _ => ?_⟩
      · show (m.type == .joinReq) = false
        cases hm : m.type <;> rw [hm] at a2 <;> first | rfl | exact a2.elim
      · rw [a1]
        exact fun hc => hC.named (hc ▸ (h.evs _ h1).1)
    | client h1 h2 =>
      rename_i m
      refine ⟨.inl ⟨h1, fun e he => ?_⟩, ?_, fun hv => ?_⟩
      · have := h2 e he
        unfold Entry.isApp at this
        unfold Entry.Held
        cases hv : e.val <;> rw [hv] at this <;> first | trivial | cases this
      · show (m.type == .joinReq) = false
        rw [h1]; rfl
      · rw [h1] at hv; cases hv
    | answer => exact ⟨trivial, rfl, trivial⟩
    | prevoted h1 h2 h3 h4 h5 h6 h7 h8 =>
      obtain ⟨s1, s2, _, hp⟩ := h.replies _ h5 _ _ h7 h8
      exact ⟨(answer_facts hp).1 h4, rfl, trivial⟩
    | failed => exact ⟨trivial, rfl, trivial⟩
    | prefailed h1 h2 h3 h4 => exact ⟨(h.sent h1 h3).2.2.1, rfl, trivial⟩
    | election => exact ⟨trivial, rfl, trivial⟩
    | heartbeat => exact ⟨trivial, rfl, trivial⟩
    | apply => exact ⟨trivial, rfl, trivial⟩
    | replicate => exact ⟨trivial, rfl, trivial⟩
    | tick => exact ⟨trivial, rfl, trivial⟩

theorem others_length {cs : List SrvCfg} {me : Int} (hn : (cs.map SrvCfg.id).Nodup) (hm : me ∈ cs.map SrvCfg.id) :
    (others cs me).length + 1 = (cs.map SrvCfg.id).length := by
  unfold others
  generalize cs.map SrvCfg.id = l at *
  induction l with
  | nil => cases hm
  | cons a l ih =>
    rw [List.nodup_cons] at hn
    by_cases ha : a = me
    · subst ha
      rw [List.filter_cons_of_neg (by simp), List.length_cons]
      congr 2
      rw [List.filter_eq_self]
      intro b hb
      have : b ≠ a := fun h => hn.1 (h ▸ hb)
      simpa using this
    · rw [List.filter_cons_of_pos (by simpa using ha), List.length_cons, List.length_cons]
      rcases List.mem_cons.1 hm with h | h
      · exact absurd h.symm ha
      · rw [ih hn.2 h]

theorem Answered.mono {E E' : List Ev} {i : Int} {t : Nat} {v : Int} (hs : ∀ e ∈ E, e ∈ E') (h : Answered E i t v) :
    Answered E' i t v := by
  obtain ⟨ty, r, h1, h2⟩ := h
  exact ⟨ty, r, h1.mono hs, h2⟩

theorem WInv.init (hC : C.Fine) : WInv C C.init where
  hist := fun i _ => ⟨[], .nil, fun _ h => (by cases h)⟩
  held := fun i _ => ⟨⟨hC.config i, fun _ h => (by cases h), fun _ h => (by cases h)⟩, fun _ h => (by cases h)⟩
  evs := fun _ h => (by cases h)
  replies := fun _ h => (by cases h)
  leads := fun _ h => (by cases h)

theorem WInv.step (hC : C.Fine) (h : WInv C w) (hs : C.WStep w w') : WInv C w' := by
  cases hs with
  | @mk i x es n hi hd hst =>
  have hsub : ∀ e ∈ w.evs, e ∈ w.evs ++ es.map fun e => (⟨i, x, e⟩ : Ev) := fun e he => List.mem_append_left _ he
  have hnew := (h.held i hi).step (c := C.setup i) hC.nodup hi hst fun y hy => (h.input hC (hd y hy)).1
  obtain ⟨n1, n2, n3⟩ := hnew
  refine ⟨fun j hj => ?_, fun j hj => ?_, fun ev hev => ?_, fun ev hev => ?_, fun ev hev t ht => ?_⟩
  · obtain ⟨xs, h1, h2⟩ := h.hist j hj
    by_cases hij : j = i
    · subst hij
      refine ⟨xs ++ x.toList, ?_, fun y hy => ?_⟩
      · show Hist _ _ _ (effsOf (w.evs ++ es.map fun e => (⟨j, x, e⟩ : Ev)) j) (if j = j then n else w.node j)
        rw [effsOf_same, if_pos rfl]
        exact .step h1 hst
      · rcases List.mem_append.1 hy with hy | hy
        · exact (h2 y hy).mono hsub
        · cases x with
          | none => cases hy
          | some z => rw [List.mem_singleton.1 hy]; exact (hd z rfl).mono hsub
    · refine ⟨xs, ?_, fun y hy => (h2 y hy).mono hsub⟩
      show Hist _ _ _ (effsOf (w.evs ++ es.map fun e => (⟨i, x, e⟩ : Ev)) j) (if j = i then n else w.node j)
      rw [effsOf_other hij, if_neg hij]
      exact h1
  · show (if j = i then n else w.node j).Held _ _
    by_cases hij : j = i
    · subst hij; rw [if_pos rfl]; exact n1
    · rw [if_neg hij]; exact h.held j hj
  · rcases List.mem_append.1 hev with hev | hev
    · exact h.evs ev hev
    · obtain ⟨e, he, rfl⟩ := List.mem_map.1 hev
      exact ⟨hi, n2 e he⟩
  · rcases List.mem_append.1 hev with hev | hev
    · exact h.replies ev hev
    · obtain ⟨e, he, rfl⟩ := List.mem_map.1 hev
      intro q a hq ha
      have ha : e = .reply a := ha
      subst ha
      exact n3 q a hq he
  · rcases List.mem_append.1 hev with hev | hev
    · obtain ⟨V, v1, v2, v3⟩ := h.leads ev hev t ht
      exact ⟨V, v1, v2, fun v hv => (v3 v hv).imp (fun h => h) fun h => h.mono hsub⟩
    · obtain ⟨e, he, rfl⟩ := List.mem_map.1 hev
      have ht : e = .lead t := ht
      subst ht
      obtain ⟨xs, h1, h2⟩ := h.hist i hi
      rcases hn : w.node i with ⟨d, up⟩
      rw [hn] at hst h1
      have hup : ∃ s y, up = some s ∧ x = some y := by
        cases hst with
        | run _ => exact ⟨_, _, rfl, rfl⟩
        | survive _ => exact ⟨_, _, rfl, rfl⟩
        | crash _ => exact ⟨_, _, rfl, rfl⟩
        | boot => cases he
      obtain ⟨s, y, rfl, rfl⟩ := hup
      have hall : ∀ z ∈ xs ++ [y], DeliverW w.evs i z := by
        intro z hz
        rcases List.mem_append.1 hz with hz | hz
        · exact h2 z hz
        · rw [List.mem_singleton.1 hz]; exact hd y rfl
      obtain ⟨V, v1, v2, v3, _⟩ := leader_needs_majority_partial h1 hst he fun z hz => (h.input hC (hall z hz)).2.1
      have hsh := ((h.held i hi).up s (by rw [hn])).shape.ids
      have hlen : s.peers.length + 1 = C.ids.length := by
        have := congrArg List.length hsh
        rw [List.length_map] at this
        rw [this]
        exact others_length hC.nodup hi
      refine ⟨V, v1, hlen ▸ v2, fun v hv => (v3 v hv).imp (fun h => h) ?_⟩
      rintro ⟨ty, r, g1, g2, g3, g4, g5⟩
      exact ⟨ty, r, (hall _ g1).mono hsub, g2, g3, g4, g5⟩

theorem Cluster.WRun.inv (hC : C.Fine) (h : WInv C w) (hr : C.WRun w w') : WInv C w' := by
  induction hr with
  | refl => exact h
  | step _ hs ih => exact ih.step hC hs

theorem Cluster.WReach.inv (hC : C.Fine) (hr : C.WReach w) : WInv C w := Cluster.WRun.inv hC (WInv.init hC) hr

/-- A vote that reached the candidate was asked for by it and announced by the voter. -/
theorem WInv.voter (h : WInv C w) {i v : Int} {t : Nat} (ha : Answered w.evs i t v) : v ∈ C.ids ∧
    (∃ e ∈ effsOf w.evs v, e.vote? = some (t, i)) ∧ ∃ e ∈ effsOf w.evs i, e.vote? = some (t, i) := by
  obtain ⟨ty, r, hd, h1, h2, h3, h4⟩ := ha
  generalize hx : Input.peerResp ty r = x at hd
  cases hd with
  | snapped => cases hx
  | plain hd =>
    cases hd with
    | @answer e1 e2 q r' g1 g2 g3 g4 g5 g6 g7 g8 =>
      injection hx with _ hx
      subst hx
      obtain ⟨s1, s2, hid, hp⟩ := h.replies _ g5 _ _ g7 g8
      obtain ⟨f1, f2, f3, f4⟩ := (answer_facts hp).2 h1 h2
      obtain ⟨a1, _⟩ := h.sent g1 g3
      have hv : e2.node = v := by rw [← hid, ← f2, h4]
      refine ⟨hv ▸ (h.evs _ g5).1, ⟨e2.eff, mem_effsOf.2 ⟨e2, g5, hv, rfl⟩, ?_⟩,
        ⟨e1.eff, mem_effsOf.2 ⟨e1, g1, g2, rfl⟩, ?_⟩⟩
      · rw [g8]
        show (if r.type = .voteResp ∧ r.accepted = true then some (r.term, r.dst) else none) = _
        rw [if_pos ⟨h1, h2⟩, h3, f3, a1, g2]
      · rw [g3]
        show (if q.type = .voteReq then some (q.term, q.src) else none) = _
        rw [if_pos f1, ← f4, h3, a1, g2]
    | _ => cases hx

end Cs.Raft
