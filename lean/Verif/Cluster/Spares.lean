import Verif.Raft.PropsCatch

/-!
# What sending requests leaves alone
-/

set_option linter.unusedSectionVars false

namespace Cs.Raft
open Cs

/-- What a leader keeps of a peer when it sends requests. -/
structure PeerSpared (p p' : Peer) : Prop where
  id : p'.id = p.id
  matched : p'.matched = p.matched
  resp : p'.lastResp = p.lastResp
  next : 0 < p.nextIdx → p'.nextIdx = p.nextIdx
  busy : p.busy = true → p'.busy = true

theorem PeerSpared.refl (p : Peer) : PeerSpared p p := ⟨rfl, rfl, rfl, fun _ => rfl, fun h => h⟩

theorem PeerSpared.trans {p q r : Peer} (h1 : PeerSpared p q) (h2 : PeerSpared q r) : PeerSpared p r :=
  ⟨h2.id.trans h1.id, h2.matched.trans h1.matched, h2.resp.trans h1.resp,
    fun h => (h2.next (by rw [h1.next h]; exact h)).trans (h1.next h), fun h => h2.busy (h1.busy h)⟩

/-- What is known of a peer. -/
def Peer.stamp (p : Peer) : Int × Nat × Nat := (p.id, p.matched, p.lastResp)

/-- What sending requests leaves alone. -/
structure Spares (s s' : Srv) : Prop where
  now : s'.now = s.now
  params : s'.params = s.params
  applied : s'.smCommit = s.smCommit
  quick : s.quickCommit ≤ s'.quickCommit
  stamps : s'.peers.map Peer.stamp = s.peers.map Peer.stamp
  find : ∀ k p, s.findPeer k = some p → ∃ p', s'.findPeer k = some p' ∧ PeerSpared p p'

theorem sprPo : PO Spares :=
  ⟨fun _ => ⟨rfl, rfl, rfl, Nat.le_refl _, rfl, fun _ p h => ⟨p, h, .refl p⟩⟩, fun h1 h2 =>
    ⟨h2.now.trans h1.now, h2.params.trans h1.params, h2.applied.trans h1.applied, Nat.le_trans h1.quick h2.quick,
     h2.stamps.trans h1.stamps, fun k p h => by
      obtain ⟨q, a, b⟩ := h1.find k p h
      obtain ⟨r, c, d⟩ := h2.find k q a
      exact ⟨r, c, b.trans d⟩⟩⟩

theorem Spares.same {s s' : Srv} (h1 : s'.now = s.now) (h2 : s'.params = s.params) (h3 : s'.smCommit = s.smCommit)
    (h4 : s'.quickCommit = s.quickCommit) (h5 : s'.peers = s.peers) : Spares s s' :=
  ⟨h1, h2, h3, Nat.le_of_eq h4.symm, by rw [h5], fun k p h => ⟨p, by unfold Srv.findPeer; rw [h5]; exact h, .refl p⟩⟩

theorem Spares.setPeer (s : Srv) (r : PeerRef) (f : Peer → Peer) (hf : ∀ p, PeerSpared p (f p)) : Spares s (s.setPeer r f) := by
  cases r with
  | joining => exact .same rfl rfl rfl rfl rfl
  | member k =>
    refine ⟨rfl, rfl, rfl, Nat.le_refl _, ?_, fun i p h => ?_⟩
    · show (s.peers.map fun p => if p.id == k then f p else p).map Peer.stamp = _
      rw [List.map_map]
      refine List.map_congr_left fun p _ => ?_
      show Peer.stamp (if p.id == k then f p else p) = _
      split
      · unfold Peer.stamp; rw [(hf p).id, (hf p).matched, (hf p).resp]
      · rfl
    · by_cases hk : k = i
      · subst hk
        exact ⟨f p, by rw [find_setPeer _ _ _ fun p => (hf p).id, h]; rfl, hf p⟩
      · exact ⟨p, by rw [find_setPeer_ne _ hk _ fun p => (hf p).id]; exact h, .refl p⟩

theorem spr_mod {f : Srv → Srv} (h : ∀ s, Spares s (f s)) : Pres Spares (modify f : R PUnit) := fun s => h s
theorem spr_emit (e : Eff) : Pres Spares (emit e) := fun _ => .same rfl rfl rfl rfl rfl
theorem spr_modPeer (r : PeerRef) (f : Peer → Peer) (hf : ∀ p, PeerSpared p (f p)) : Pres Spares (modPeer r f) := fun s => .setPeer s r f hf

theorem spr_die {α : Type} (c : Int) : Pres Spares (die c : R α) := by
  unfold die
  pres sprPo using spr_emit
theorem spr_getPeer (r : PeerRef) : Pres Spares (getPeer r) := by
  unfold getPeer
  pres sprPo using spr_emit
theorem spr_peerIds  : Pres Spares (peerIds) := by
  unfold peerIds
  pres sprPo using spr_emit
theorem spr_termAt (i : Nat) : Pres Spares (termAt i) := by
  unfold termAt
  pres sprPo using spr_emit
theorem spr_termForLog (i : Nat) : Pres Spares (termForLog i) := by
  unfold termForLog
  pres sprPo using spr_die, spr_termAt
theorem spr_chooseSnap (r : PeerRef) (n : Nat) : Pres Spares (chooseSnap r n) := by
  unfold chooseSnap
  pres sprPo using spr_die, spr_getPeer, spr_modPeer
  all_goals exact ⟨rfl, rfl, rfl, fun _ => rfl, fun h => h⟩
theorem spr_createSync (r : PeerRef) (a b c : Nat) : Pres Spares (createSyncSnapshotReq r a b c) := by
  unfold createSyncSnapshotReq
  pres sprPo using spr_die, spr_getPeer, spr_chooseSnap
theorem spr_entriesFrom (n : Nat) : Pres Spares (entriesFrom n) := by
  unfold entriesFrom
  pres sprPo using spr_emit
theorem spr_appendReqFrom (r : PeerRef) (n : Nat) : Pres Spares (appendReqFrom r n) := by
  unfold appendReqFrom
  pres sprPo using spr_termForLog, spr_entriesFrom, spr_getPeer
theorem spr_createAppendReq (r : PeerRef) : Pres Spares (createAppendReq r) := by
  unfold createAppendReq
  refine pres_bind sprPo (pres_get sprPo) fun s => pres_bind sprPo (spr_modPeer _ _ fun p => ?_) fun _ => ?_
  · split
    · exact ⟨rfl, rfl, rfl, fun h => absurd h (by omega), fun h => h⟩
    · exact .refl p
  · pres sprPo using spr_die, spr_getPeer, spr_createSync, spr_appendReqFrom
theorem spr_requestAppend (r : PeerRef) : Pres Spares (requestAppend r) := by
  unfold requestAppend
  pres sprPo using spr_emit, spr_getPeer, spr_modPeer, spr_createAppendReq
  exact ⟨rfl, rfl, rfl, fun _ => rfl, fun _ => rfl⟩
theorem spr_commitNotify (k : Int) : Pres Spares (commitNotify k) := by
  unfold commitNotify
  pres sprPo using spr_requestAppend, spr_modPeer
  exact ⟨rfl, rfl, rfl, fun _ => rfl, fun h => h⟩
theorem spr_requestAppendTo (k : Int) : Pres Spares (requestAppendTo k) := by
  unfold requestAppendTo
  pres sprPo using spr_requestAppend
theorem spr_notifyAll (ks : List Int) : Pres Spares (forEach commitNotify ks) := pres_forEach sprPo spr_commitNotify ks

theorem spr_commit (n : Nat) : Pres Spares (commit n) := by
  unfold commit
  refine pres_getBind fun s => ?_
  by_cases h : s.quickCommit < n
  · rw [if_pos h, bind_modify]
    refine sprPo.trans (b := { s with quickCommit := n }) ?_ ?_
    · exact ⟨rfl, rfl, rfl, Nat.le_of_lt h, rfl, fun k p h => ⟨p, h, .refl p⟩⟩
    · have : Pres Spares (emit (.advance n) >>= fun _ => if s.role = .leader then peerIds >>= fun ids => forEach commitNotify ids else pure ()) := by
        pres sprPo using spr_emit, spr_peerIds, spr_notifyAll
      exact this _
  · rw [if_neg h]; exact sprPo.refl s

/-- The commit index is at least what it is set to. -/
theorem commit_reaches (n : Nat) (s : Srv) : n ≤ (commit n s).2.quickCommit := by
  unfold commit
  rw [bind_get]
  by_cases h : s.quickCommit < n
  · rw [if_pos h, bind_modify]
    have : Pres Spares (emit (.advance n) >>= fun _ => if s.role = .leader then peerIds >>= fun ids => forEach commitNotify ids else pure ()) := by
      pres sprPo using spr_emit, spr_peerIds, spr_notifyAll
    exact (this { s with quickCommit := n }).quick
  · rw [if_neg h]; show n ≤ s.quickCommit; omega

theorem spr_requestAppendAll : Pres Spares requestAppendAll := by
  unfold requestAppendAll
  pres sprPo using spr_commit, spr_peerIds, spr_requestAppendTo

end Cs.Raft
