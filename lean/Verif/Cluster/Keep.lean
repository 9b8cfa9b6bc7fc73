import Verif.Cluster.Commit

/-!
# From the invariants to the states of the servers
-/

namespace Cs.Raft
open Cs

variable {C : Cluster} {w w' : World}

/-! ## What the invariants say about the state -/

theorem Inv.leads {ps : Int → PS} {g : Ghost} (h : Inv C w ps g) {i : Int} {t : Nat} (hi : i ∈ C.ids) (hl : w.Leads i t) :
    (ps i).role = .leader ∧ (ps i).term = t ∧ (i, .lead t) ∈ w.hist ∧ (ps i).log = g.llog t := by
  obtain ⟨s, hs, hr, ht⟩ := hl
  have ha := ((h.linked.nodes i hi).up s hs).2
  have h1 : (ps i).role = .leader := by rw [← ha]; exact hr
  have h2 : (ps i).term = t := by rw [← ha]; exact ht
  refine ⟨h1, h2, ?_, ?_⟩
  · have := (h.safe.logs.votes.leader h1).1; rw [h2] at this; exact this
  · have := (h.safe.logs.srv i).lead h1; rw [h2] at this; exact this

theorem Inv.get {ps : Int → PS} {g : Ghost} (h : Inv C w ps g) {i : Int} (hi : i ∈ C.ids) (k : Nat) :
    (w.log i).get? (k + 1) = (ps i).log[k]? := by
  unfold World.log
  rw [(h.linked.nodes i hi).disk.log]
  unfold Log.get?
  rw [if_neg (by simp)]
  rfl

theorem Inv.get_zero {ps : Int → PS} {g : Ghost} (h : Inv C w ps g) {i : Int} (hi : i ∈ C.ids) :
    (w.log i).get? 0 = none := by
  unfold World.log
  rw [(h.linked.nodes i hi).disk.log]
  rfl

/-! ## The log of a leader -/

theorem Act.own_log {S : List Int} {ps : Int → PS} {H : History} {i : Int} {e : Eff} {c c' : PS} (hS : -1 ∉ S)
    (hv : VotesOk S ps H) (ha : Act S H i c e c') (hl : (i, .lead c.term) ∈ H) :
    c.term < c'.term ∨ c'.term = c.term ∧ c.log <+: c'.log := by
  cases ha with
  | raise h => exact .inl h
  | @write m k e x h1 h2 h3 =>
    obtain ⟨⟨j, hj⟩, hd, hty⟩ := h1
    have h4 := hv.replicated hj hty
    rw [h2] at h4
    have := hv.one_leader hS h4 hl
    subst this
    exact absurd hd (hv.sent hj (by rw [hty]; decide)).2
  | appendOwn => exact .inr ⟨rfl, List.prefix_append _ _⟩
  | append => exact .inr ⟨rfl, List.prefix_append _ _⟩
  | _ => exact .inr ⟨rfl, List.prefix_refl _⟩

theorem Path.term_le {cs : List SrvCfg} {H : History} {i : Int} {es : List Eff} {c c' : PS} (p : Path cs H i c es c') :
    c.term ≤ c'.term := by
  induction p with
  | nil => exact Nat.le_refl _
  | act a _ _ ih => exact Nat.le_trans a.term_le ih
  | quiet a _ _ ih => rw [← a.frame.1]; exact ih

theorem Path.own_log {cs : List SrvCfg} {ps : Int → PS} {H : History} {i : Int} {es : List Eff} {c c' : PS}
    (hS : -1 ∉ cs.map SrvCfg.id) (hv : VotesOk (cs.map SrvCfg.id) ps H) (p : Path cs H i c es c')
    (hl : (i, .lead c.term) ∈ H) : c'.term = c.term → c.log <+: c'.log := by
  induction p with
  | nil => exact fun _ => List.prefix_refl _
  | act a _ p ih =>
    intro ht
    rcases a.own_log hS hv hl with h | ⟨h1, h2⟩
    · have := p.term_le; omega
    · rw [h1] at ih; exact h2.trans (ih hl ht)
  | quiet a _ p ih =>
    obtain ⟨q1, q2, q3, _⟩ := a.frame
    intro ht
    rw [q1] at ih
    rw [← q3]
    exact ih hl ht

end Cs.Raft
