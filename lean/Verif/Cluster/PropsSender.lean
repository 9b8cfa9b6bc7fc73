import Verif.Cluster.PropsWide
import Verif.Raft.PropsSender

/-!
# Append and snapshot requests of a term come from its leader (C113), in a cluster

The executions are those of `Verif/Cluster/Wide.lean`: fixed members, any parameters (also pre-votes), snapshots taken, sent and
installed, crashes and restarts.
-/

namespace Cs.Raft
open Cs Witness

variable {C : Cluster} {w w' : World}

theorem held_ofChange {cs : List SrvCfg} {x : Input} (h : x.Held cs) : x.ofChange = false := by
  cases x with
  | extResp p ty r =>
    have h : r.type = .prevoteResp := h
    show (r.type != .prevoteResp) = false
    rw [h]; rfl
  | extErr p q =>
    have h : q.type.usual := h
    show (q.type == .leaveReq) = false
    cases hq : q.type <;> rw [hq] at h <;> first | rfl | exact h.elim
  | _ => rfl

theorem WInv.sender (hC : C.Fine) (h : WInv C w) {a : Ev} {m : Req} (ha : a ∈ w.evs) (ea : a.eff = .send m) (hr : isRepl m.type) :
    ∃ ev ∈ w.evs, ev.node = a.node ∧ ev.eff = .lead m.term := by
  obtain ⟨xs, g1, g2⟩ := h.hist a.node (h.evs a ha).1
  have g3 := g1.inTime fun x hx => held_ofChange (h.input hC (g2 x hx)).1
  have hm : .send m ∈ effsOf w.evs a.node := mem_effsOf.2 ⟨a, ha, rfl, ea⟩
  obtain ⟨l, r, hlr⟩ := List.append_of_mem hm
  have hp : l ++ [.send m] <+: effsOf w.evs a.node := ⟨r, by rw [hlr, List.append_assoc]; rfl⟩
  have hl := only_leader_sends_partial g3 hp hr
  exact mem_effsOf.1 (hp.subset (List.mem_append_left _ hl))

/-- C113, in a cluster: the sender of an append or a snapshot request has taken the lead of the term of the request. -/
theorem sender_was_elected (hC : C.Fine) (hr : C.WReach w) {a : Ev} {m : Req} (ha : a ∈ w.evs) (ea : a.eff = .send m)
    (ht : m.type = .appendReq ∨ m.type = .snpReq) : m.src = a.node ∧ ∃ ev ∈ w.evs, ev.node = m.src ∧ ev.eff = .lead m.term := by
  have h := hr.inv hC
  have h1 := (h.sent ha ea).1
  exact ⟨h1, h1 ▸ h.sender hC ha ea ht⟩

/-- C113, in a cluster: all append and snapshot requests of a term, whoever gets them and whenever, have the same sender. -/
theorem one_sender_with_snapshots (hC : C.Fine) (hr : C.WReach w) {a b : Ev} {m q : Req} (ha : a ∈ w.evs) (hb : b ∈ w.evs)
    (ea : a.eff = .send m) (eb : b.eff = .send q) (hm : m.type = .appendReq ∨ m.type = .snpReq)
    (hq : q.type = .appendReq ∨ q.type = .snpReq) (ht : m.term = q.term) : m.src = q.src := by
  have h := hr.inv hC
  obtain ⟨c, c1, c2, c3⟩ := h.sender hC ha ea hm
  obtain ⟨d, d1, d2, d3⟩ := h.sender hC hb eb hq
  rw [(h.sent ha ea).1, (h.sent hb eb).1, ← c2, ← d2]
  exact h.one_leader hC c1 d1 c3 (ht ▸ d3)

/-- C113, in a cluster: nobody sends an append or a snapshot request to a server that leads the term of the request, neither before nor
while it leads. (It would end, as lines 94-101 and 302-310 of raft_server_req_handlers.cxx say.) -/
theorem leader_hears_no_rival (hC : C.Fine) (hr : C.WReach w) {i : Int} {t : Nat} (hi : i ∈ C.ids) (hl : w.Leads i t) {a : Ev} {m : Req}
    (ha : a ∈ w.evs) (ea : a.eff = .send m) (hm : m.type = .appendReq ∨ m.type = .snpReq) (ht : m.term = t) : m.dst ≠ i := by
  have h := hr.inv hC
  obtain ⟨c, c1, c2, c3⟩ := h.sender hC ha ea hm
  obtain ⟨d, d1, d2, d3⟩ := h.leader hC hi hl
  have h1 := h.one_leader hC c1 d1 c3 (ht ▸ d3)
  have h2 := (h.sent ha ea).2.1
  rw [← c2, h1, d2] at h2
  exact h2

/-- Servers 1 and 3 lead terms 1 and 2, and both send append requests. -/
example : ∃ C : Cluster, C.Fine ∧ ∃ w w', C.WReach w ∧ C.WRun w w' ∧ w.Leads 1 1 ∧ w'.Leads 3 2 ∧
    (∃ a ∈ w.evs, ∃ m, a.eff = .send m ∧ m.type = .appendReq ∧ m.term = 1) ∧
    ∃ a ∈ w'.evs, ∃ m, a.eff = .send m ∧ m.type = .appendReq ∧ m.term = 2 := by
  obtain ⟨w, w', h1, h2, hp⟩ := World.wwitness2 (C := trioS) lossBegins lossEnds
    (fun w w' => w.leadsB 1 1 && w'.leadsB 3 2 &&
      (w.evs.any fun a => match a.eff with | .send m => decide (m.type = .appendReq ∧ m.term = 1) | _ => false) &&
      (w'.evs.any fun a => match a.eff with | .send m => decide (m.type = .appendReq ∧ m.term = 2) | _ => false)) (by decide +kernel)
  have key : ∀ {E : List Ev} {t : Nat}, (E.any fun a => match a.eff with | .send m => decide (m.type = .appendReq ∧ m.term = t) | _ => false) = true →
      ∃ a ∈ E, ∃ m, a.eff = .send m ∧ m.type = .appendReq ∧ m.term = t := by
    intro E t h
    obtain ⟨a, ha, h⟩ := List.any_eq_true.1 h
    split at h
    · next m hm => exact ⟨a, ha, m, hm, of_decide_eq_true h⟩
    · cases h
  simp only [Bool.and_eq_true] at hp
  exact ⟨trioS, trioS_fine, w, w', h1, h2, World.leadsB_iff.1 hp.1.1.1, World.leadsB_iff.1 hp.1.1.2, key hp.1.2, key hp.2⟩

end Cs.Raft
