import Verif.Cluster.Progress

/-!
# A majority can always make progress: the election and the request of a client
-/

namespace Cs.Raft
open Cs

variable {C : Cluster} {M : List Int} {w : World} {S : Int → Srv} {b : Int}

/-- One log is at least as good as another: what decides about votes. -/
def Better (l m : Log) : Prop := m.lastTerm < l.lastTerm ∨ l.lastTerm = m.lastTerm ∧ m.next ≤ l.next

theorem best_exists (f : Int → Log) : ∀ (l : List Int), l ≠ [] → ∃ b ∈ l, ∀ j ∈ l, Better (f b) (f j)
  | [], h => absurd rfl h
  | a :: l, _ => by
    by_cases hl : l = []
    · subst hl
      exact ⟨a, List.mem_singleton.2 rfl, fun j hj => by rw [List.mem_singleton.1 hj]; exact .inr ⟨rfl, Nat.le_refl _⟩⟩
    · obtain ⟨b, hb, h⟩ := best_exists f l hl
      by_cases hab : Better (f b) (f a)
      · refine ⟨b, List.mem_cons_of_mem _ hb, fun j hj => ?_⟩
        rcases List.mem_cons.1 hj with rfl | hj
        · exact hab
        · exact h j hj
      · refine ⟨a, List.mem_cons_self .., fun j hj => ?_⟩
        rcases List.mem_cons.1 hj with rfl | hj
        · exact .inr ⟨rfl, Nat.le_refl _⟩
        · have := h j hj
          unfold Better at *
          omega

theorem Better.upToDate {s : Srv} {l : Log} (h : Better s.log l) (k : Int) : upToDate (s.ballot k) l = true := by
  unfold Raft.upToDate
  show (decide (l.lastTerm < s.log.lastTerm) || (decide (s.log.lastTerm = l.lastTerm) && decide (l.next - 1 ≤ s.log.next - 1))) = true
  rcases h with h | ⟨h1, h2⟩
  · rw [decide_eq_true h]; rfl
  · rw [decide_eq_true h1, decide_eq_true (show l.next - 1 ≤ s.log.next - 1 by omega), Bool.and_true, Bool.or_true]

/-- A new leader, and the others. -/
structure Enthroned (C : Cluster) (M : List Int) (b : Int) (s0 : Srv) (S0 : Int → Srv) (w : World) (S : Int → Srv) : Prop where
  run : Running C M w S
  won : ∃ A, A.Nodup ∧ (∀ k ∈ A, k ∈ M ∧ k ≠ b) ∧ s0.peers.length + 1 < 2 * (A.length + 1) ∧ Crowned s0 A (S b)
  others : ∀ j ∈ M, j ≠ b → (S j).log = (S0 j).log ∧ (S j).smCommit = (S0 j).smCommit ∧ (S j).term ≤ s0.term
  sent : ∀ e ∈ (S b).trace, ∃ ev ∈ w.evs, ev.node = b ∧ ev.eff = e

theorem poll_all (hC : C.Ok) (hb : b ∈ M) {s0 : Srv} {S0 : Int → Srv} (hs0 : Fine C b s0) (hm : 0 < s0.params.maxAppend)
    (hbest : ∀ j ∈ M, Better s0.log (S0 j).log) :
    ∀ (ks A : List Int) {w : World} {S : Int → Srv}, Running C M w S → ks.Nodup → (∀ k ∈ ks, k ∈ M ∧ k ≠ b ∧ k ∉ A) → A.Nodup →
      (∀ k ∈ A, k ∈ M ∧ k ≠ b) → Polled s0 A (S b) → (∀ k ∈ ks, (S k).term < s0.term) →
      (∀ j ∈ M, j ≠ b → (S j).log = (S0 j).log ∧ (S j).smCommit = (S0 j).smCommit ∧ (S j).term ≤ s0.term) →
      (∀ k ∈ s0.peers.map Peer.id, ∃ ev ∈ w.evs, ev.node = b ∧ ev.eff = .send (s0.ballot k)) →
      (s0.peers.length + 1) / 2 < A.length + ks.length + 1 → A.length + 1 ≤ (s0.peers.length + 1) / 2 →
      ∃ w' S', C.Work M w w' ∧ Enthroned C M b s0 S0 w' S'
  | [], A, w, S, _, _, _, _, _, _, _, _, _, h1, h2 => by simp only [List.length_nil] at h1; omega
  | k :: ks, A, w, S, h, hn, hk, hA, hAM, hp, ht, ho, hbal, h1, h2 => by
    obtain ⟨hkM, hkb, hkA⟩ := hk k (List.mem_cons_self ..)
    obtain ⟨hn1, hn2⟩ := List.nodup_cons.1 hn
    have hkp : k ∈ s0.peers.map Peer.id := fine_mem hs0 (h.sub k hkM) hkb
    obtain ⟨ev, e1, e2, e3⟩ := hbal k hkp
    have fk := h.fine hC hkM
    obtain ⟨w1, F', a1, a2, a3, a4, a5, a6⟩ := ballot_put h hkM e1 e3 rfl rfl (show (S k).term < s0.term from ht k (List.mem_cons_self ..))
    have ev2 := a6 (by rw [(ho k hkM hkb).1]; exact (hbest k hkM).upToDate k)
    have hSb : nodeAt S k F' b = S b := nodeAt_ne (Ne.symm hkb)
    obtain ⟨s', r1, r2⟩ := poll_run (r := (S k).grant (s0.ballot k)) hp hs0.start hm hkp hkA (by rw [hs0.id]; exact hkb) rfl rfl fk.id rfl
    obtain ⟨w2, b2, b3⟩ := a2.put hb (Deliver.answer (q := s0.ballot k) (a1.evs _ e1) e2 e3 (by intro h; cases h) ev2 rfl rfl rfl)
      (by rw [hSb]; exact r1) (fun n hn => by cases hn)
    have ho' : ∀ j ∈ M, j ≠ b → (nodeAt (nodeAt S k F') b s' j).log = (S0 j).log ∧
        (nodeAt (nodeAt S k F') b s' j).smCommit = (S0 j).smCommit ∧ (nodeAt (nodeAt S k F') b s' j).term ≤ s0.term := by
      intro j hj hjb
      rw [nodeAt_ne hjb]
      obtain ⟨o1, o2, o3⟩ := ho j hj hjb
      obtain ⟨o4, o5⟩ := a3 j hj
      refine ⟨o4.trans o1, o5.trans o2, ?_⟩
      by_cases hjk : j = k
      · subst hjk; rw [nodeAt_self, a4]; exact Nat.le_refl _
      · rw [nodeAt_ne hjk]; exact o3
    have hAM' : ∀ x ∈ k :: A, x ∈ M ∧ x ≠ b := by
      intro x hx
      rcases List.mem_cons.1 hx with rfl | hx
      · exact ⟨hkM, hkb⟩
      · exact hAM x hx
    have hA' : (k :: A).Nodup := List.nodup_cons.2 ⟨hkA, hA⟩
    rcases r2 with ⟨c1, c2⟩ | ⟨c1, c2⟩
    · refine ⟨_, _, a1.trans w2, ⟨b2, ⟨k :: A, hA', hAM', ?_, ?_⟩, ho', ?_⟩⟩
      · rw [List.length_cons]; omega
      · rw [nodeAt_self]; exact c2
      · rw [nodeAt_self]
        intro e he
        exact ⟨_, b3 e he, rfl, rfl⟩
    · obtain ⟨w3, S3, d1, d2⟩ := poll_all hC hb hs0 hm hbest ks (k :: A) b2 hn2 (fun x hx => by
          obtain ⟨g1, g2, g3⟩ := hk x (List.mem_cons_of_mem _ hx)
          refine ⟨g1, g2, fun hc => ?_⟩
          rcases List.mem_cons.1 hc with rfl | hc
          · exact hn1 hx
          · exact g3 hc) hA' hAM' (by rw [nodeAt_self]; exact c2) (fun x hx => by
          obtain ⟨_, g2, _⟩ := hk x (List.mem_cons_of_mem _ hx)
          rw [nodeAt_ne g2, nodeAt_ne (fun hc => hn1 (by rw [← hc]; exact hx))]
          exact ht x (List.mem_cons_of_mem _ hx)) ho' (fun x hx => by
          obtain ⟨ev, g1, g2⟩ := hbal x hx
          exact ⟨ev, w2.evs _ (a1.evs _ g1), g2⟩) (by rw [List.length_cons] at h1 ⊢; omega) (by rw [List.length_cons]; omega)
      exact ⟨w3, S3, (a1.trans w2).trans d1, d2⟩

theorem fine_of_fine {s s' : Srv} (h : Fine C b s) (h1 : s'.id = s.id) (h2 : s'.log.start = 1) (h3 : s'.peers.map Peer.id = s.peers.map Peer.id)
    (h4 : s'.catchingUp = false) (h5 : s'.stepsToDown = 0) (h6 : s'.params = s.params) : Fine C b s' :=
  ⟨h1.trans h.id, h2, h3.trans h.ids, h4, h5, h6.trans h.params⟩

/-- A majority elects the server with the best log. -/
theorem elect (hC : C.Ok) (hp : ∀ i ∈ M, (C.params i).prevote = false) (hmax : ∀ i ∈ M, 0 < (C.params i).maxAppend)
    (h : Running C M w S) (hM : C.Majority M) (hv : ∃ v ∈ M, (S v).role ≠ .leader) (h2 : 2 ≤ C.ids.length) :
    ∃ b w' s0 S', b ∈ M ∧ (∀ j ∈ M, Better (S b).log (S j).log) ∧ C.Work M w w' ∧ s0.log = (S b).log ∧ s0.smCommit = (S b).smCommit ∧
      Fine C b s0 ∧ Enthroned C M b s0 S w' S' := by
  obtain ⟨v, hv, hvl⟩ := hv
  obtain ⟨b, hb, hbest⟩ := best_exists (fun j => (S j).log) M (List.ne_nil_of_mem hv)
  obtain ⟨w1, S1, a1, a2, a3, a4⟩ := depose hC hp h2 h hb hv hvl
  obtain ⟨w2, s0, b1, b2, b3, b4, b5, b6, b7⟩ := stand_above hC hp h2 a2 hb a4
  have e1 : nodeAt S1 b s0 b = s0 := nodeAt_self _ _ _
  have f := b2.fine hC hb
  rw [e1] at f
  have hlen := fine_length hC (h.sub b hb) f
  have hml := filter_length hM.1 hb
  have hmaj := hM.2.2
  obtain ⟨w3, S3, c1, c2⟩ := poll_all (S0 := S) hC hb f (by rw [f.params]; exact hmax b hb) (fun j hj => by
      rw [b3, (a3 b hb).1]; exact hbest j hj) (M.filter (· != b)) [] b2 (hM.1.filter _) (fun k hk => by
      obtain ⟨k1, k2⟩ := List.mem_filter.1 hk
      exact ⟨k1, by simpa using k2, by simp⟩) List.nodup_nil (fun _ h => by cases h) (by rw [e1]; exact b6) (fun k hk => by
      obtain ⟨k1, k2⟩ := List.mem_filter.1 hk
      rw [nodeAt_ne (by simpa using k2)]; exact b5 k k1) (fun j hj hjb => by
      rw [nodeAt_ne hjb]; exact ⟨(a3 j hj).1, (a3 j hj).2, Nat.le_of_lt (b5 j hj)⟩) b7 (by simp only [List.length_nil]; omega)
      (by simp only [List.length_nil]; omega)
  exact ⟨b, w3, s0, S3, hb, hbest, (a1.trans b1).trans c1, b3.trans (a3 b hb).1, b4.trans (a3 b hb).2, f, c2⟩

end Cs.Raft
