import Verif.Cluster.WideInv
import Verif.Cluster.Witness
import Verif.Raft.Crown

/-!
# Clusters that take snapshots (C91)

The executions are those of `Verif/Cluster/Wide.lean`: fixed members, any parameters, snapshots taken, sent and installed.
There is still at most one leader per term. But a server whose log is empty after it has taken a snapshot votes for candidates
that lack committed entries, and these are then replaced.
-/

namespace Cs.Raft
open Cs Witness

variable {C : Cluster} {w w' : World}

/-! ## At most one leader per term -/

/-- A server that leads has announced it. -/
theorem Hist.crowned {c : Setup} {cfg : Config} {xs : List Input} {fx : List Eff} {n : Node}
    (h : Hist c (Node.fresh cfg) xs fx n) (hx : ∀ x ∈ xs, x.isJoin = false) :
    ∀ s, n.up = some s → s.role = .leader → .lead s.term ∈ fx := by
  induction h with
  | nil => exact fun s h => (by cases h)
  | @step n1 n2 xs fx es x hh hs ih =>
    have ih := ih fun x hm => hx x (List.mem_append_left _ hm)
    cases hs with
    | @run d s0 s1 y hr =>
      intro s hu hl
      cases hu
      obtain ⟨es, h1, h2⟩ := cwn_run y (hx y (List.mem_append_right _ (List.mem_singleton.2 rfl))) { s0 with trace := [] }
      rw [hr] at h1 h2
      rcases h2 hl with ⟨h3, h4⟩ | h3
      · exact List.mem_append_left _ (h4 ▸ ih s0 rfl h3)
      · exact List.mem_append_right _ (by rw [h1]; exact h3)
    | @survive d s0 s1 y hr =>
      intro s hu hl
      cases hu
      obtain ⟨es, h1, h2⟩ := cwn_run y (hx y (List.mem_append_right _ (List.mem_singleton.2 rfl))) { s0 with trace := [] }
      rw [hr] at h1 h2
      rcases h2 hl with ⟨h3, h4⟩ | h3
      · exact List.mem_append_left _ (h4 ▸ ih s0 rfl h3)
      · exact List.mem_append_right _ (by rw [h1]; exact h3)
    | crash => exact fun s h => (by cases h)
    | boot => exact fun s h hl => (by cases h; cases hl)

theorem WInv.one_leader (hC : C.Fine) (h : WInv C w) {a b : Ev} {t : Nat} (ha : a ∈ w.evs) (hb : b ∈ w.evs)
    (ea : a.eff = .lead t) (eb : b.eff = .lead t) : a.node = b.node := by
  obtain ⟨V, v1, v2, v3⟩ := h.leads a ha t ea
  obtain ⟨W, u1, u2, u3⟩ := h.leads b hb t eb
  have ia := (h.evs a ha).1
  have ib := (h.evs b hb).1
  have quorum : ∀ {X : List Int} {c : Ev}, c.node ∈ C.ids → X.Nodup → C.ids.length < 2 * X.length →
      (∀ v ∈ X, v = c.node ∨ Answered w.evs c.node t v) → Quorum C.ids X := fun hc h1 h2 h3 =>
    ⟨h1, fun v hv => (h3 v hv).elim (fun e => e ▸ hc) fun g => (h.voter g).1, h2⟩
  obtain ⟨x, hx, hy⟩ := Quorum.inter (quorum ia v1 v2 v3) (quorum ib u1 u2 u3)
  /- A vote announced by `x` for the server of event `c`; it is missing only if nobody else was asked. -/
  have vote : ∀ {X : List Int} {c : Ev}, X.Nodup → C.ids.length < 2 * X.length →
      (∀ v ∈ X, v = c.node ∨ Answered w.evs c.node t v) → x ∈ X →
      (∃ e ∈ effsOf w.evs x, e.vote? = some (t, c.node)) ∨ C.ids.length ≤ 1 := by
    intro X c h1 h2 h3 h4
    rcases h3 x h4 with rfl | hg
    · by_cases hlen : C.ids.length ≤ 1
      · exact .inr hlen
      · have h2' : 2 ≤ X.length := by omega
        obtain ⟨y, hy, hne⟩ : ∃ y ∈ X, y ≠ c.node := by
          rcases X with _ | ⟨p, _ | ⟨q, X⟩⟩
          · cases h4
          · simp at h2'
          · by_cases hp : p = c.node
            · refine ⟨q, by simp, fun hq => ?_⟩
              rw [List.nodup_cons] at h1
              exact h1.1 (by rw [hp, ← hq]; simp)
            · exact ⟨p, by simp, hp⟩
        rcases h3 y hy with e | hg
        · exact absurd e hne
        · exact .inl (h.voter hg).2.2
    · exact .inl (h.voter hg).2.1
  have small : C.ids.length ≤ 1 → a.node = b.node := by
    intro hl
    generalize C.ids = l at ia ib hl
    rcases l with _ | ⟨p, _ | ⟨q, l⟩⟩
    · cases ia
    · rw [List.mem_singleton.1 ia, List.mem_singleton.1 ib]
    · simp at hl
  rcases vote v1 v2 v3 hx with ⟨e, he, hv⟩ | hl
  · rcases vote u1 u2 u3 hy with ⟨e', he', hv'⟩ | hl
    · have hxi : x ∈ C.ids := (quorum ia v1 v2 v3).2.1 x hx
      obtain ⟨xs, g1, g2⟩ := h.hist x hxi
      exact one_vote_per_term_partial g1 (fun hc => hC.named (hc ▸ hxi)) (fun y hm => (h.input hC (g2 y hm)).2) he he' hv hv'
    · exact small hl
  · exact small hl

/-- C91, C40 with snapshots: two servers that became leader in the same term are the same server. -/
theorem one_leader_per_term_with_snapshots (hC : C.Fine) (hr : C.WReach w) {a b : Ev} {t : Nat} (ha : a ∈ w.evs)
    (hb : b ∈ w.evs) (ea : a.eff = .lead t) (eb : b.eff = .lead t) : a.node = b.node :=
  (hr.inv hC).one_leader hC ha hb ea eb

theorem Cluster.WRun.evs {a b : World} (h : C.WRun a b) : ∀ ev ∈ a.evs, ev ∈ b.evs := by
  induction h with
  | refl => exact fun _ h => h
  | step _ hs ih =>
    cases hs with
    | mk _ _ _ => exact fun ev hev => List.mem_append_left _ (ih ev hev)

theorem WInv.leader (hC : C.Fine) (h : WInv C w) {i : Int} {t : Nat} (hi : i ∈ C.ids) (hl : w.Leads i t) :
    ∃ ev ∈ w.evs, ev.node = i ∧ ev.eff = .lead t := by
  obtain ⟨s, h1, h2, h3⟩ := hl
  obtain ⟨xs, g1, g2⟩ := h.hist i hi
  have := g1.crowned (fun x hx => (h.input hC (g2 x hx)).2.1) s h1 h2
  rw [h3] at this
  exact mem_effsOf.1 this

/-- C91, C40 with snapshots, for the states of the servers: if `i` is leader of a term at some time and `j` is at this or a
later time, they are the same server. -/
theorem leaders_of_a_term_with_snapshots (hC : C.Fine) (hr : C.WReach w) (hr' : C.WRun w w') {i j : Int} {t : Nat}
    (hi : i ∈ C.ids) (hj : j ∈ C.ids) (h1 : w.Leads i t) (h2 : w'.Leads j t) : i = j := by
  have hw := hr.inv hC
  have hw' := hr'.inv hC hw
  obtain ⟨a, a1, a2, a3⟩ := hw.leader hC hi h1
  obtain ⟨b, b1, b2, b3⟩ := hw'.leader hC hj h2
  rw [← a2, ← b2]
  exact hw'.one_leader hC (hr'.evs a a1) b1 a3 b3

/-! ## Committed entries are lost -/

/-- Three servers that take a snapshot after each entry they apply, and keep no entries (`snapshot_distance` 1,
`reserved_log_items` 0). -/
def trioS : Cluster := { trio with params := fun _ => { snpDistance := 1, reserved := 0 } }

theorem trioS_fine : trioS.Fine := ⟨trio_ok.nodup, trio_ok.named, trio_ok.config⟩

/-- Server 1 leads term 1, replicates command 7 to server 2, and both apply it. -/
def lossBegins : List WPlay :=
  (opening 1 ++ [Play.back 20 23, .client 1 7, .recv 31, .back 31 35, .apply 1, .recv 37, .apply 2]).map .plain

/-- Server 2 finishes its snapshot; server 1 is restarted meanwhile; server 3 is elected by server 2 and appends command 8,
which it replicates to server 1. -/
def lossEnds : List WPlay :=
  .snapped 43 true :: [Play.kill 1, .election 3, .recv 49, .back 49 53, .client 3 8, .start 1, .recv 56, .back 56 63,
    .recv 64, .back 64 68, .apply 3, .recv 70].map .plain

/-- The claim that fails: entry 2 of server 1, the leader of term 1, is confirmed by a majority and applied by servers 1 and 2;
later server 3 leads term 2 with another entry 2 and applies that. -/
def lossB (w w' : World) : Bool :=
  w.leadsB 1 1 && decide ((w.log 1).get? 2 = some ⟨1, .app 7⟩) && confirmedB w.evs 2 1 2 &&
  w.did 1 (.commit 2 ⟨1, .app 7⟩) && w.did 2 (.commit 2 ⟨1, .app 7⟩) &&
  w'.leadsB 3 2 && decide ((w'.log 3).get? 2 = some ⟨2, .app 8⟩) && w'.did 3 (.commit 2 ⟨2, .app 8⟩)

theorem loss : ∃ w w', trioS.WReach w ∧ trioS.WRun w w' ∧ lossB w w' = true :=
  World.wwitness2 lossBegins lossEnds lossB (by decide +kernel)

/-- C91 fails: leader completeness (C42) does not hold in clusters that take snapshots. Entry 2 of the leader of term 1 is of this
term and a majority has confirmed it, yet the leader of the later term 2 has another entry there. -/
theorem snapshot_loses_committed_entry : ∃ C : Cluster, C.Fine ∧ ∃ w w', C.WReach w ∧ C.WRun w w' ∧
    w.Leads 1 1 ∧ (w.log 1).get? 2 = some ⟨1, .app 7⟩ ∧ (∃ V, C.Majority V ∧ ∀ v ∈ V, v = 1 ∨ Confirmed w.evs v 1 2) ∧
    w'.Leads 3 2 ∧ (w'.log 3).get? 2 = some ⟨2, .app 8⟩ := by
  obtain ⟨w, w', h1, h2, hp⟩ := loss
  unfold lossB at hp
  simp only [Bool.and_eq_true, decide_eq_true_eq] at hp
  obtain ⟨⟨⟨⟨⟨⟨⟨p1, p2⟩, p3⟩, p4⟩, p5⟩, p6⟩, p7⟩, p8⟩ := hp
  refine ⟨trioS, trioS_fine, w, w', h1, h2, World.leadsB_iff.1 p1, p2, ⟨[1, 2], ⟨by decide, by decide, by decide⟩, ?_⟩,
    World.leadsB_iff.1 p6, p7⟩
  intro v hv
  rcases List.mem_cons.1 hv with rfl | hv
  · exact .inl rfl
  · rw [List.mem_singleton.1 hv]; exact .inr (confirmedB_sound p3)

/-- C91 fails: servers 1 and 2 have applied command 7 at index 2; later server 3 applies command 8 there. -/
theorem snapshot_makes_commands_differ : ∃ C : Cluster, C.Fine ∧ ∃ w, C.WReach w ∧
    (∃ ev ∈ w.evs, ev.node = 1 ∧ ev.eff = .commit 2 ⟨1, .app 7⟩) ∧ (∃ ev ∈ w.evs, ev.node = 2 ∧ ev.eff = .commit 2 ⟨1, .app 7⟩) ∧
    ∃ ev ∈ w.evs, ev.node = 3 ∧ ev.eff = .commit 2 ⟨2, .app 8⟩ := by
  obtain ⟨w, w', h1, h2, hp⟩ := loss
  unfold lossB at hp
  simp only [Bool.and_eq_true, decide_eq_true_eq] at hp
  obtain ⟨⟨⟨⟨⟨⟨⟨p1, p2⟩, p3⟩, p4⟩, p5⟩, p6⟩, p7⟩, p8⟩ := hp
  obtain ⟨a, a1, a2, a3⟩ := World.did_mem p4
  obtain ⟨b, b1, b2, b3⟩ := World.did_mem p5
  exact ⟨trioS, trioS_fine, w', h1.trans h2, ⟨a, h2.evs a a1, a2, a3⟩, ⟨b, h2.evs b b1, b2, b3⟩, World.did_mem p8⟩

/-- The positive theorems are not void: in this execution, where a snapshot is taken, servers 1 and 3 lead terms 1 and 2. -/
example : ∃ C : Cluster, C.Fine ∧ ∃ w w', C.WReach w ∧ C.WRun w w' ∧ w.Leads 1 1 ∧ w'.Leads 3 2 ∧
    ∃ ev ∈ w'.evs, ev.node = 2 ∧ ev.eff = .compact 2 := by
  obtain ⟨w, w', h1, h2, hp⟩ := World.wwitness2 (C := trioS) lossBegins lossEnds
    (fun w w' => w.leadsB 1 1 && w'.leadsB 3 2 && w'.did 2 (.compact 2)) (by decide +kernel)
  simp only [Bool.and_eq_true] at hp
  exact ⟨trioS, trioS_fine, w, w', h1, h2, World.leadsB_iff.1 hp.1.1, World.leadsB_iff.1 hp.1.2, World.did_mem hp.2⟩

end Cs.Raft
