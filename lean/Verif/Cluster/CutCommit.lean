import Verif.Cluster.CutInv
import Verif.Cluster.Commit
import Verif.Cluster.Keep

/-!
# When the commit index can be trusted, with compacted logs
-/

namespace Cs.Raft.Cut
open Cs Cs.Raft

variable {C : Cluster} {w w' : World} {ps : Int → PS} {g : Ghost} {i : Int}

theorem confirmed_hist {v : Int} {t n : Nat} (h : Confirmed w.evs v t n) :
    ∃ r, (v, .reply r) ∈ hist w ∧ r.type = .appendResp ∧ r.accepted = true ∧ r.term = t ∧ n < r.nextIdx := by
  obtain ⟨ev, h1, h2, r, h3, h4⟩ := h
  exact ⟨r, mem_hist.2 ⟨rfl, ev, h1, h2, h3⟩, h4⟩

/-- A kept effect, among all effects. -/
theorem filter_split {es es1 es2 : List Eff} {e : Eff} (h : es.filter kept = es1 ++ e :: es2) :
    ∃ a b, es = a ++ e :: b ∧ a.filter kept = es1 := by
  obtain ⟨l1, l2, h1, h2, h3⟩ := List.filter_eq_append_iff.1 h
  obtain ⟨m1, m2, k1, k2, k3, k4⟩ := List.filter_eq_cons_iff.1 h3
  refine ⟨l1 ++ m1, m2, by rw [h1, k1, List.append_assoc], ?_⟩
  rw [List.filter_append, h2, List.filter_eq_nil_iff.2 k2, List.append_nil]

theorem comm_step (hC : C.OkS) (h : Inv C w ps g) (hk : CommOk C.ids ps (hist w) g) (st : C.SStep w w')
    (hcare : Careful C w'.evs) : ∃ ps' g', Inv C w' ps' g' ∧ CommOk C.ids ps' (hist w') g' := by
  obtain ⟨i, x, es, c1, c', pre, hi, he, hh, p, hc, hl, hdok, hor, hto⟩ := h.linked.step hC h.safe.logs.votes st
  obtain ⟨g', hle, hs, hk'⟩ := p.comm hC.named hi (fun _ h => h) rfl h.safe hk (by
    intro es1 n es2 h1 a hpa
    obtain ⟨hcore, hhigh⟩ : (∀ e ∈ es, kept e = core e) ∧ High pre es := by
      rcases hor with hor | hor
      · rw [hor] at h1; cases es1 <;> cases h1
      · exact hor
    obtain ⟨a1, b1, e1, f1⟩ := filter_split h1
    have hda : DiskOk C.servers pre ((C.diskAt w.evs i).afterAll a1) a := by
      refine path_disk' (H := hist w) (i := i) ?_ (fun k x hm => hhigh k x (by rw [e1]; exact List.mem_append.2 (.inl hm))) hdok
      rw [← filter_kept (fun e he => hcore e (by rw [e1]; exact List.mem_append.2 (.inl he))), f1]
      exact hpa
    have hd1 : C.diskAt (w.evs ++ a1.map fun e => (⟨i, x, e⟩ : Ev)) i = (C.diskAt w.evs i).afterAll a1 := by
      rw [diskAt_snoc, if_pos rfl]
    have hhist : hist ⟨w.node, w.evs ++ a1.map fun e => ⟨i, x, e⟩⟩ = hist w ++ es1.map fun e => (i, e) := by
      rw [hist_snoc, f1]
    rcases hcare.either (w.evs ++ a1.map fun e => ⟨i, x, e⟩) ⟨i, x, .advance n⟩ (b1.map fun e => ⟨i, x, e⟩) n
      (by rw [he, e1]; simp) rfl with ⟨m, m1, m2, m3⟩ | ⟨hlead, hent, V, hq, hV⟩
    · obtain ⟨t1, t2, t3, t4⟩ := hto m m1 (by rw [m2]; nofun) a1 n b1 e1
      rw [hda.term] at t3
      rw [← hda.log] at t4
      exact .inr ⟨m, t2.mono fun y hy => List.mem_append.2 (.inl hy), t3, t4, Nat.le_of_eq t1, m3⟩
    · simp only [] at hlead hent hV
      rw [hd1] at hlead hent hV
      rw [hda.term] at hlead hent hV
      obtain ⟨y, hy, hyt⟩ := Option.map_eq_some_iff.1 hent
      have hlt := (Log.get?_lt hy).1
      have hst := hda.start
      rw [get?_cut hst hlt, ← hda.log] at hy
      rw [← hhist]
      refine .inl ⟨?_, by omega, by rw [hy]; exact congrArg some hyt, V, hq, fun v hv => ?_⟩
      · obtain ⟨ev, l1, l2, l3⟩ := hlead
        exact mem_hist.2 ⟨rfl, ev, l1, l2, l3⟩
      · rcases hV v hv with h2 | h2
        · exact .inl h2
        · exact .inr (confirmed_hist (w := ⟨w.node, _⟩) h2))
  refine ⟨upd ps i c', g', ⟨hl, ?_⟩, ?_⟩
  · rw [hh]
    rcases hc with rfl | ⟨q, hq, rfl⟩
    · exact hs
    · have := hs.quiet (i := i) (c := { c1 with role := .follower, counting := false, qc := q })
        (by rw [upd_self]; exact .crash hq)
      rw [upd_upd] at this
      exact this
  · rw [hh]
    rcases hc with rfl | ⟨q, hq, rfl⟩
    · exact hk'
    · have := hk'.quiet (i := i) (c := { c1 with role := .follower, counting := false, qc := q })
        (by rw [upd_self]; exact .crash hq)
      rw [upd_upd] at this
      exact this

theorem sstep_evs (st : C.SStep w w') : ∃ E, w'.evs = w.evs ++ E := by
  cases st with
  | mk => exact ⟨_, rfl⟩

theorem comm_reach (hC : C.OkS) (h : C.SReach w) (hcare : Careful C w.evs) :
    ∃ ps g, Inv C w ps g ∧ CommOk C.ids ps (hist w) g := by
  induction h with
  | refl => exact ⟨_, _, Inv.init hC, CommOk.init fun _ => rfl⟩
  | step _ st ih =>
    obtain ⟨E, he⟩ := sstep_evs st
    obtain ⟨ps, g, h1, h2⟩ := ih (Careful.prefix (he ▸ hcare))
    exact comm_step hC h1 h2 st hcare

/-! ## States -/

theorem Inv.leads (h : Inv C w ps g) {t : Nat} (hi : i ∈ C.ids) (hl : w.Leads i t) :
    (ps i).role = .leader ∧ (ps i).term = t ∧ (i, .lead t) ∈ hist w ∧ (ps i).log = g.llog t := by
  obtain ⟨s, hs, hr, ht⟩ := hl
  obtain ⟨pre, hn⟩ := h.linked.nodes i hi
  have ha := (hn.up s hs).2
  have h1 : (ps i).role = .leader := by rw [← ha]; exact hr
  have h2 : (ps i).term = t := by rw [← ha]; exact ht
  refine ⟨h1, h2, ?_, ?_⟩
  · have := (h.safe.logs.votes.leader h1).1; rw [h2] at this; exact this
  · have := (h.safe.logs.srv i).lead h1; rw [h2] at this; exact this

/-- Entries of the log are where they would be without compaction. -/
theorem Inv.get (h : Inv C w ps g) (hi : i ∈ C.ids) {k : Nat} (hk : (w.log i).start ≤ k) :
    0 < k ∧ (w.log i).get? k = (ps i).log[k - 1]? := by
  obtain ⟨pre, hn⟩ := h.linked.nodes i hi
  have hst : (w.log i).start = pre.length + 1 := hn.disk.start
  refine ⟨by omega, ?_⟩
  rw [get?_cut hst hk, hn.disk.log]
  rfl

theorem Inv.get_some (h : Inv C w ps g) (hi : i ∈ C.ids) {k : Nat} {e : Entry} (he : (w.log i).get? k = some e) :
    0 < k ∧ (ps i).log[k - 1]? = some e := by
  obtain ⟨h1, h2⟩ := h.get hi (Log.get?_lt he).1
  exact ⟨h1, by rw [← h2]; exact he⟩

theorem Inv.next (h : Inv C w ps g) (hi : i ∈ C.ids) : (w.log i).next = (ps i).log.length + 1 := by
  obtain ⟨pre, hn⟩ := h.linked.nodes i hi
  have hst : (w.log i).start = pre.length + 1 := hn.disk.start
  have hl := hn.disk.log
  have := next_cut hst
  rw [this, hl]
  rfl

/-- The log of a server with entries. -/
theorem Inv.full (h : Inv C w ps g) (hi : i ∈ C.ids) : (w.log i).start = 1 ∨ (w.log i).ents ≠ [] := by
  obtain ⟨pre, hn⟩ := h.linked.nodes i hi
  have hst : (w.log i).start = pre.length + 1 := hn.disk.start
  rcases hn.disk.full with hf | hf
  · left; rw [hst, hf]; rfl
  · exact .inr hf

/-- What is not in the log is in a snapshot. -/
theorem Inv.snap (h : Inv C w ps g) (hi : i ∈ C.ids) :
    (w.log i).start = 1 ∨ ∃ x, (w.node i).disk.snap = some x ∧ (w.log i).start ≤ x.lastIdx := by
  obtain ⟨pre, hn⟩ := h.linked.nodes i hi
  have hst : (w.log i).start = pre.length + 1 := hn.disk.start
  rcases hn.disk.has with hf | hf
  · left; rw [hst, hf]; rfl
  · obtain ⟨x, hx⟩ := Option.isSome_iff_exists.1 hf
    exact .inr ⟨x, hx, by rw [hst]; exact hn.disk.snap x hx⟩

end Cs.Raft.Cut
