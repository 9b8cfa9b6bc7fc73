import Verif.Cluster.PropsCalm
import Verif.Raft.PropsCatch

/-!
# Members of a cluster are brought up to date (C79)
-/

namespace Cs.Raft
open Cs Cs.Raft.Witness

variable {C : Cluster} {w : World} {i j : Int} {L F : Srv}

/-- Logs of a leader and of a member that is not in a later term match, in all executions. -/
theorem cluster_fits (hC : C.Ok) (hw : C.Reach w) (hi : i ∈ C.ids) (hj : j ∈ C.ids) (hij : i ≠ j) (hL : (w.node i).up = some L)
    (hl : L.role = .leader) (hF : (w.node j).up = some F) (ht : F.term ≤ L.term) :
    L.log.start = 1 ∧ Hears L F ∧ Fits L F ∧ F.id = j ∧ ∃ p, L.findPeer j = some p := by
  obtain ⟨ps, g, h⟩ := hw.inv hC
  obtain ⟨gL, aL⟩ := (h.linked.nodes i hi).up L hL
  obtain ⟨gF, aF⟩ := (h.linked.nodes j hj).up F hF
  obtain ⟨_, _, l3, l4⟩ := h.leads hi ⟨L, hL, hl, rfl⟩
  have eL : (ps i).log = L.log.ents := by rw [← aL]; rfl
  have eF : (ps j).log = F.log.ents := by rw [← aF]; rfl
  have get : ∀ (s : Srv), s.log.start = 1 → ∀ k, s.log.get? (k + 1) = s.log.ents[k]? := by
    intro s hs k
    unfold Log.get?
    rw [hs, if_neg (by omega)]
    rfl
  have zero : ∀ (s : Srv), s.log.start = 1 → s.log.get? 0 = none := by
    intro s hs
    unfold Log.get?
    rw [if_pos (by omega)]
  refine ⟨gL.start, ⟨gF.start, ht, fun he hr => ?_⟩, ⟨?_, ?_⟩, gF.id, ?_⟩
  · obtain ⟨_, _, m3, _⟩ := h.leads hj ⟨F, hF, hr, he⟩
    exact hij (h.safe.logs.votes.one_leader hC.named l3 m3)
  · intro k a b ha hb hab m hm
    cases k with
    | zero => rw [zero L gL.start] at ha; cases ha
    | succ k =>
      rw [get L gL.start, ← eL] at ha
      rw [get F gF.start, ← eF] at hb
      have := Lin.match (h.safe.logs.srv i).lin (h.safe.logs.srv j).lin ha hb hab
      cases m with
      | zero => rw [zero L gL.start, zero F gF.start]
      | succ m =>
        rw [get L gL.start, get F gF.start, ← eL, ← eF]
        have h1 : ((ps i).log.take (k + 1))[m]? = (ps i).log[m]? := by rw [List.getElem?_take, if_pos (by omega)]
        rw [← h1, this, List.getElem?_take, if_pos (by omega)]
  · intro k b hb hbt
    cases k with
    | zero => rw [zero F gF.start] at hb; cases hb
    | succ k =>
      rw [get F gF.start, ← eF] at hb
      have h1 := (h.safe.logs.srv j).lin k b hb
      rw [hbt, ← l4, eL] at h1
      have h2 := h1.length_le
      have h3 := (List.getElem?_eq_some_iff.1 hb).1
      rw [List.length_take] at h2
      unfold Log.next
      rw [gL.start]
      omega
  · have hm : j ∈ L.peers.map Peer.id := by
      rw [gL.ids]
      exact List.mem_filter.2 ⟨hj, by simpa using hij.symm⟩
    obtain ⟨p, _, _, hp⟩ := find_of_ids hm
    exact ⟨p, hp⟩

/-- What `member_catches_up_partial` needs of the two servers holds in all executions of a cluster to which nothing unusual
happens (C45). -/
theorem cluster_serves (hC : C.Ok) (hw : C.Calm w) (hi : i ∈ C.ids) (hj : j ∈ C.ids) (hij : i ≠ j) (hL : (w.node i).up = some L)
    (hl : L.role = .leader) (hb : 0 < L.params.maxAppend) (hF : (w.node j).up = some F) (ht : F.term ≤ L.term) :
    Serves L ∧ Hears L F ∧ Fits L F ∧ F.id = j ∧ ∃ p, L.findPeer j = some p := by
  obtain ⟨h1, h2⟩ := cluster_fits hC hw.reach hi hj hij hL hl hF ht
  exact ⟨⟨hl, h1, hw.next hC i hi L hL hl, hb⟩, h2⟩

/-- C79, in a cluster: at any time in an execution in which nothing unusual reaches a server (C45), a heartbeat of a leader to a
running member that is not in a later term, and from which it does not await an answer, brings this member up to date, if from then
on messages between the two arrive. Partial: for clusters without compaction, snapshots and changes of the configuration. -/
theorem cluster_member_catches_up_partial (hC : C.Ok) (hw : C.Calm w) (hi : i ∈ C.ids) (hj : j ∈ C.ids) (hij : i ≠ j)
    (hL : (w.node i).up = some L) (hl : L.role = .leader) (hb : 0 < L.params.maxAppend) (hF : (w.node j).up = some F)
    (ht : F.term ≤ L.term) (hidle : ∀ p, L.findPeer j = some p → p.busy = false) :
    ∃ L' q, (Input.hbTimeout j).run { L with trace := [] } = (.ok ⟨⟩, L') ∧ sendsTo j L'.trace = [q] ∧
      ∀ L'' F', LeadsOn j L' L'' → FollowsOn F F' → Reaches j (fun F => L.log.ents <+: F.log.ents) L'' F' q := by
  obtain ⟨h1, h2, h3, rfl, p, h4⟩ := cluster_serves hC hw hi hj hij hL hl hb hF ht
  exact member_catches_up_partial L F p h1 h2 h3 h4 (hidle p h4)

/-- Server 1 has been elected and has told server 2, which failed. Server 2, which is running, lacks an entry, and server 1 awaits no
answer. -/
example : ∃ C : Cluster, C.Ok ∧ ∃ w, C.Calm w ∧ 1 ∈ C.ids ∧ 2 ∈ C.ids ∧ ∃ L F, (w.node 1).up = some L ∧ L.role = .leader ∧
    0 < L.params.maxAppend ∧ (w.node 2).up = some F ∧ F.term ≤ L.term ∧ (∀ p, L.findPeer 2 = some p → p.busy = false) ∧
    ¬ L.log.ents <+: F.log.ents := by
  obtain ⟨w, h, hp⟩ := World.calm (C := trio) ((opening 1).take 6 ++ [.fail 11])
    (fun w => match (w.node 1).up, (w.node 2).up with
      | some L, some F => decide (L.role = .leader) && decide (0 < L.params.maxAppend) && decide (F.term ≤ L.term) &&
          ((L.findPeer 2).all fun p => !p.busy) && !decide (L.log.ents <+: F.log.ents)
      | _, _ => false) (by decide +kernel)
  split at hp
  · rename_i L F h1 h2
    simp only [Bool.and_eq_true, decide_eq_true_eq, Bool.not_eq_true', decide_eq_false_iff_not] at hp
    obtain ⟨⟨⟨⟨g1, g2⟩, g3⟩, g4⟩, g5⟩ := hp
    refine ⟨trio, trio_ok, w, h, by decide, by decide, L, F, h1, g1, g2, h2, g3, fun p hp => ?_, g5⟩
    rw [hp] at g4
    simpa using g4
  · cases hp

end Cs.Raft
