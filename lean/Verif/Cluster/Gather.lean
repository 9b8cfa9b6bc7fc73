import Verif.Cluster.Poll

/-!
# The leader and the answers of one member: the other members, and the commit index
-/

namespace Cs.Raft
open Cs

variable {i : Int} {L : Srv}

/-- What an answer of server `i` does not change. -/
structure Heeds (i : Int) (s s' : Srv) : Prop where
  now : s'.now = s.now
  params : s'.params = s.params
  applied : s'.smCommit = s.smCommit
  quick : s.quickCommit ≤ s'.quickCommit
  others : ∀ k, k ≠ i → ∀ p, s.findPeer k = some p → ∃ p', s'.findPeer k = some p' ∧ PeerSpared p p'

theorem hdsPo : PO (Heeds i) :=
  ⟨fun _ => ⟨rfl, rfl, rfl, Nat.le_refl _, fun _ _ p h => ⟨p, h, .refl p⟩⟩, fun h1 h2 =>
    ⟨h2.now.trans h1.now, h2.params.trans h1.params, h2.applied.trans h1.applied, Nat.le_trans h1.quick h2.quick,
     fun k hk p h => by
      obtain ⟨q, a, b⟩ := h1.others k hk p h
      obtain ⟨r, c, d⟩ := h2.others k hk q a
      exact ⟨r, c, b.trans d⟩⟩⟩

theorem Spares.heeds {s s' : Srv} (h : Spares s s') : Heeds i s s' := ⟨h.now, h.params, h.applied, h.quick, fun k _ => h.find k⟩

theorem Heeds.set (s : Srv) (f : Peer → Peer) (hf : ∀ p, (f p).id = p.id) : Heeds i s (s.setPeer (.member i) f) :=
  ⟨rfl, rfl, rfl, Nat.le_refl _, fun k hk p h => ⟨p, by rw [find_setPeer_ne _ (Ne.symm hk) _ hf]; exact h, .refl p⟩⟩

theorem heeds_answered (L : Srv) : Heeds i L (L.answeredBy i) :=
  hdsPo.trans (hdsPo.trans (Heeds.set L _ (by intro p; split <;> rfl)) (Heeds.set _ _ (by intro p; rfl))) (Heeds.set _ _ (by intro p; rfl))

theorem hds_of_spr {α : Type} {m : R α} (h : Pres Spares m) : Pres (Heeds i) m := fun s => (h s).heeds

theorem hds_mod (f : Peer → Peer) (hf : ∀ p, (f p).id = p.id) : Pres (Heeds i) (modPeer (.member i) f) := fun s => .set s f hf

theorem hds_accepted {r : Resp} (h : r.src = i) : Pres (Heeds i) (acceptedResp r) := by
  unfold acceptedResp
  rw [h]
  refine pres_bind hdsPo (hds_mod _ (by intro p; rfl)) fun _ => pres_bind hdsPo (pres_get hdsPo) fun s =>
    pres_bind hdsPo (hds_of_spr (spr_commit _)) fun _ => pres_bind hdsPo (hds_of_spr (spr_getPeer _)) fun p =>
    pres_bind hdsPo (hds_mod _ (by intro p; rfl)) fun _ => pres_bind hdsPo (pres_get hdsPo) fun s => pres_pure hdsPo _

theorem hds_refused {r : Resp} (h : r.src = i) : Pres (Heeds i) (refusedResp r) := by
  unfold refusedResp
  rw [h]
  refine pres_bind hdsPo (hds_mod _ (by intro p; split; · rfl
                                        · split <;> rfl)) fun _ => pres_pure hdsPo _

theorem hds_appendResp {r : Resp} (h : r.src = i) : Pres (Heeds i) (handleAppendResp r) := by
  unfold handleAppendResp
  have hj : ∀ more : Bool, Pres (Heeds i) (get >>= fun s => if s.role = .leader ∧ more = true then requestAppendTo r.src else pure ()) :=
    fun more => pres_bind hdsPo (pres_get hdsPo) fun s => pres_ite (hds_of_spr (spr_requestAppendTo _)) (pres_pure hdsPo _)
  refine pres_bind hdsPo (pres_get hdsPo) fun s => pres_ite (pres_pure hdsPo _) (pres_ite ?_ ?_)
  · exact pres_bind hdsPo (hds_accepted h) hj
  · exact pres_bind hdsPo (hds_refused h) hj

/-- The answer of one member leaves the records of the others alone. -/
theorem heeds_answer {r : Resp} (h1 : r.type = .appendResp) (h2 : r.term = L.term) (h3 : r.src = i) (hp : (L.findPeer i).isSome = true) :
    Heeds i L ((Input.peerResp .appendReq r).run L).2 := by
  rw [run_appendAnswer h1 h2 h3 hp]
  exact hdsPo.trans (heeds_answered L) (hds_appendResp h3 _)

/-! ## The commit index -/

/-- A leader commits what a majority has. -/
theorem commitTarget_ge {s : Srv} {A : List Int} {n : Nat} (h1 : n < s.log.next) (hA : A.Nodup)
    (h2 : ∀ k ∈ A, ∃ p ∈ s.peers, p.id = k ∧ n ≤ p.matched) (hm : s.peers.length + 1 < 2 * (A.length + 1)) : n ≤ commitTarget s := by
  rcases Nat.lt_or_ge (commitTarget s) n with h | h
  · exfalso
    refine commitTarget_max s n h ?_
    unfold Srv.MajorityHas Srv.holders
    rw [if_pos h1]
    have : A.length ≤ ((s.peers.filter fun p => decide (n ≤ p.matched)).map Peer.id).length := by
      refine nodup_length_le hA fun k hk => ?_
      obtain ⟨p, p1, p2, p3⟩ := h2 k hk
      exact List.mem_map.2 ⟨p, List.mem_filter.2 ⟨p1, decide_eq_true p3⟩, p2⟩
    rw [List.length_map] at this
    omega
  · exact h

theorem commit_then {α : Type} {k : PUnit → R α} (hk : ∀ a, Pres Spares (k a)) (n : Nat) (s : Srv) :
    Spares s ((commit n >>= k) s).2 ∧ n ≤ ((commit n >>= k) s).2.quickCommit := by
  have h1 := spr_commit n s
  have h2 := commit_reaches n s
  rcases he : commit n s with ⟨e | a, s'⟩
  · rw [run_bind_err he]; rw [he] at h1 h2; exact ⟨h1, h2⟩
  · rw [run_bind_ok he]; rw [he] at h1 h2
    have h3 := hk a s'
    exact ⟨sprPo.trans h1 h3, Nat.le_trans h2 h3.quick⟩

/-- The state of the leader when the member says that it has all entries. -/
def Srv.matches (L : Srv) (i : Int) (n : Nat) : Srv :=
  (L.answeredBy i).setPeer (.member i) fun p => { p with nextIdx := n, matched := subU64 n 1 }

theorem matches_ids (L : Srv) (n : Nat) : (L.matches i n).peers.map Peer.id = L.peers.map Peer.id := by
  unfold Srv.matches
  rw [ids_setPeer _ i _ (by intro p; rfl)]
  unfold Srv.answeredBy
  rw [ids_setPeer _ i _ (by intro p; rfl), ids_setPeer _ i _ (by intro p; rfl), ids_setPeer _ i _ (by intro p; split <;> rfl)]

theorem matches_find (L : Srv) (n : Nat) {p : Peer} (hp : L.findPeer i = some p) :
    ∃ p', (L.matches i n).findPeer i = some p' ∧ p'.matched = subU64 n 1 := by
  unfold Srv.matches
  rw [find_setPeer _ _ _ (by intro p; rfl)]
  unfold Srv.answeredBy
  rw [find_setPeer _ _ _ (by intro p; rfl), find_setPeer _ _ _ (by intro p; rfl), find_setPeer _ _ _ (by intro p; split <;> rfl), hp]
  exact ⟨_, rfl, rfl⟩

theorem answered_find (L : Srv) {p : Peer} (hp : L.findPeer i = some p) : ((L.answeredBy i).findPeer i).isNone = false := by
  unfold Srv.answeredBy
  rw [find_setPeer _ _ _ (by intro p; rfl), find_setPeer _ _ _ (by intro p; rfl), find_setPeer _ _ _ (by intro p; split <;> rfl), hp]
  rfl

/-- The commit index after an answer is at least what a majority had by then. -/
theorem target_answer {r : Resp} {p : Peer} (h1 : r.type = .appendResp) (h2 : r.term = L.term) (h3 : r.src = i)
    (hp : L.findPeer i = some p) (h4 : r.accepted = true) :
    Spares (L.matches i r.nextIdx) ((Input.peerResp .appendReq r).run L).2 ∧
      commitTarget (L.matches i r.nextIdx) ≤ ((Input.peerResp .appendReq r).run L).2.quickCommit := by
  rw [run_appendAnswer h1 h2 h3 (by rw [hp]; rfl)]
  unfold handleAppendResp
  rw [bind_get, if_neg (by rw [h3, answered_find L hp]; simp)]
  simp only [h4, if_true]
  unfold acceptedResp
  rw [h3, bind_assoc, bind_modPeer, bind_assoc, bind_get, bind_assoc]
  refine commit_then (fun a => ?_) _ _
  refine pres_bind sprPo (pres_bind sprPo (spr_getPeer _) fun p => pres_bind sprPo (spr_modPeer _ _ ?_) fun _ =>
    pres_bind sprPo (pres_get sprPo) fun s => pres_pure sprPo _) fun more =>
    pres_bind sprPo (pres_get sprPo) fun s => pres_ite (spr_requestAppendTo _) (pres_pure sprPo _)
  intro p
  exact ⟨rfl, rfl, rfl, fun _ => rfl, fun h => h⟩

/-- The leader handles the acceptance of all it has. -/
theorem final_run (hL : Serves L) {p : Peer} (hp : L.findPeer i = some p) (ht : L.trace = []) {r : Resp} (h1 : r.type = .appendResp)
    (h2 : r.term = L.term) (h3 : r.src = i) (h4 : r.accepted = true) (h6 : r.nextIdx = L.log.next) :
    ∃ L', (Input.peerResp .appendReq r).run L = (.ok ⟨⟩, L') ∧ View i L.log.next L L' := by
  have h5 : 0 < L.log.next := by unfold Log.next; rw [hL.start]; omega
  have hi : i ∈ L.peers.map Peer.id := List.mem_map.2 ⟨p, List.mem_of_find?_eq_some hp, by have := List.find?_some hp; simpa using this⟩
  rw [run_appendAnswer h1 h2 h3 (by rw [hp]; rfl)]
  have hv := answeredBy_view (n := L.log.next) hL hp ht (fun p => { p with nextIdx := r.nextIdx, matched := subU64 r.nextIdx 1 })
    (fun _ => rfl) (fun _ _ => Nat.le_of_eq h6) (fun _ => rfl) (fun _ _ => h6)
  unfold handleAppendResp
  rw [bind_get, if_neg (by rw [h3, answered_find L hp]; simp)]
  simp only [h4, if_true]
  have e1 : ∃ m s2, acceptedResp r (L.answeredBy i) = (.ok m, s2) ∧ View i L.log.next L s2 := by
    unfold acceptedResp
    rw [h3, bind_modPeer, bind_get]
    generalize ((L.answeredBy i).setPeer (.member i) fun p => { p with nextIdx := r.nextIdx, matched := subU64 r.nextIdx 1 }) = s1 at hv
    obtain ⟨s2, c1, c2⟩ := view_commit hL h5 (commitTarget s1) hv
    rw [run_bind_ok c1]
    obtain ⟨p2, d1, _⟩ := c2.record
    rw [run_bind_ok (getPeer_some (show s2.peer (.member i) = some p2 from d1)), bind_modPeer, bind_get]
    exact ⟨_, _, rfl, c2.setPeer i (fun p => { p with pending := false }) (fun _ => rfl) (fun _ h => h) fun _ _ h => ⟨h, rfl⟩⟩
  obtain ⟨m, s2, e1, e2⟩ := e1
  rw [run_bind_ok e1, bind_get, h3]
  by_cases hm : s2.role = .leader ∧ m = true
  · rw [if_pos hm]
    obtain ⟨s', f1, f2, _⟩ := view_done hL h5 e2 hi
    exact ⟨s', f1, f2⟩
  · rw [if_neg hm]
    exact ⟨s2, rfl, e2⟩

end Cs.Raft
