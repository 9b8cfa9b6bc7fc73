import Verif.Raft.Generic

/-!
# Commit index of the leader

What an answer to an append request does to the commit index.
-/

namespace Cs.Raft
open Cs

/-- Same log, same recorded progress, no advance of the commit index. -/
structure Keep (s s' : Srv) : Prop where
  log : s'.log = s.log
  peers : s'.peers.map Peer.key = s.peers.map Peer.key
  trace : ∃ es, s'.trace = s.trace ++ es ∧ ∀ n, Eff.advance n ∉ es

theorem Keep.of {s s' : Srv} (h1 : s'.log = s.log) (h2 : s'.peers.map Peer.key = s.peers.map Peer.key)
    (h3 : s'.trace = s.trace) : Keep s s' := ⟨h1, h2, [], by rw [h3]; simp, by simp⟩

theorem kpo : PO Keep := ⟨fun _ => .of rfl rfl rfl, fun {a b c} h1 h2 => by
  obtain ⟨e1, t1, n1⟩ := h1.trace
  obtain ⟨e2, t2, n2⟩ := h2.trace
  refine ⟨h2.log.trans h1.log, h2.peers.trans h1.peers, e1 ++ e2, by rw [t2, t1, List.append_assoc], fun n hn => ?_⟩
  rcases List.mem_append.1 hn with h | h
  · exact n1 n h
  · exact n2 n h⟩

theorem k_mod {f : Srv → Srv} (h : ∀ s, Keep s (f s)) : Pres Keep (modify f : R PUnit) := h
theorem k_emit {e : Eff} (h : ∀ n, e ≠ .advance n) : Pres Keep (emit e) := fun s =>
  ⟨rfl, rfl, [e], rfl, by intro n hn; exact h n (List.mem_singleton.1 hn).symm⟩
theorem k_die {α : Type} (c : Int) : Pres Keep (die c : R α) := fun s => ⟨rfl, rfl, [.exit c], rfl, by simp⟩
theorem k_modPeer (r : PeerRef) (f : Peer → Peer) (hf : ∀ p, (f p).cfg = p.cfg ∧ (f p).matched = p.matched) :
    Pres Keep (modPeer r f) := fun s => by
  have h := calm_setPeer s r f hf
  refine .of ?_ h.peers ?_
  · cases r <;> rfl
  · cases r <;> rfl
theorem k_getPeer (r : PeerRef) : Pres Keep (getPeer r) := by
  unfold getPeer
  pres kpo using k_die
theorem k_peerIds : Pres Keep peerIds := fun s => kpo.refl s
theorem k_termAt (i : Nat) : Pres Keep (termAt i) := by
  unfold termAt
  pres kpo using k_die
theorem k_termForLog (i : Nat) : Pres Keep (termForLog i) := by
  unfold termForLog
  pres kpo using k_die, k_termAt
theorem k_chooseSnap (r : PeerRef) (i : Nat) : Pres Keep (chooseSnap r i) := by
  unfold chooseSnap
  pres kpo using k_die, k_getPeer, k_modPeer
  exact ⟨rfl, rfl⟩
theorem k_createSync (r : PeerRef) (i t c : Nat) : Pres Keep (createSyncSnapshotReq r i t c) := by
  unfold createSyncSnapshotReq
  pres kpo using k_die, k_getPeer, k_chooseSnap
theorem k_entriesFrom (i : Nat) : Pres Keep (entriesFrom i) := by
  unfold entriesFrom
  pres kpo using k_die
theorem k_appendReqFrom (r : PeerRef) (i : Nat) : Pres Keep (appendReqFrom r i) := by
  unfold appendReqFrom
  pres kpo using k_termForLog, k_entriesFrom, k_getPeer
theorem k_createAppendReq (r : PeerRef) : Pres Keep (createAppendReq r) := by
  unfold createAppendReq
  pres kpo using k_die, k_getPeer, k_modPeer, k_createSync, k_appendReqFrom
  all_goals exact ⟨rfl, rfl⟩
theorem k_requestAppend (r : PeerRef) : Pres Keep (requestAppend r) := by
  unfold requestAppend
  pres kpo using k_getPeer, k_modPeer, k_createAppendReq, k_emit
  all_goals first | exact ⟨rfl, rfl⟩ | (intro h; cases h)
theorem k_commitNotify (id : Int) : Pres Keep (commitNotify id) := by
  unfold commitNotify
  pres kpo using k_requestAppend, k_modPeer
  exact ⟨rfl, rfl⟩
theorem k_requestAppendTo (id : Int) : Pres Keep (requestAppendTo id) := by
  unfold requestAppendTo
  pres kpo using k_requestAppend

/-! ## The index a majority has -/

/-- Number of servers known to have index `n`: this server and the peers with that progress. -/
def Srv.holders (s : Srv) (n : Nat) : Nat :=
  (if n < s.log.next then 1 else 0) + (s.peers.filter fun p => decide (n ≤ p.matched)).length

/-- More than half of the servers are known to have index `n`. -/
def Srv.MajorityHas (s : Srv) (n : Nat) : Prop := s.peers.length + 1 < 2 * s.holders n

theorem countGe_take {l : List Nat} {k n : Nat} (hp : l.Pairwise fun a b => decide (b ≤ a) = true) (hk : l[k]? = some n) :
    k + 1 ≤ (l.filter fun a => decide (n ≤ a)).length := by
  have hlt : k < l.length := by
    rcases Nat.lt_or_ge k l.length with h | h
    · exact h
    · rw [List.getElem?_eq_none h] at hk; cases hk
  have hn : l[k] = n := by rw [List.getElem?_eq_getElem hlt] at hk; exact Option.some.inj hk
  have h1 : ((l.take (k + 1)).filter fun a => decide (n ≤ a)) = l.take (k + 1) := by
    rw [List.filter_eq_self]
    intro a ha
    obtain ⟨i, hi, rfl⟩ := List.mem_iff_getElem.1 ha
    rw [List.getElem_take]
    rw [List.length_take] at hi
    rw [← hn]
    rcases Nat.lt_or_ge i k with h | h
    · exact List.pairwise_iff_getElem.1 hp i k (by omega) hlt h
    · have : i = k := by omega
      subst this
      exact decide_eq_true (Nat.le_refl _)
  have h2 : ((l.take (k + 1)).filter fun a => decide (n ≤ a)).length ≤ (l.filter fun a => decide (n ≤ a)).length :=
    ((List.take_sublist _ _).filter _).length_le
  rw [h1, List.length_take] at h2
  omega

theorem countGe_drop {l : List Nat} {k n m : Nat} (hp : l.Pairwise fun a b => decide (b ≤ a) = true) (hk : l[k]? = some n)
    (hm : n < m) : (l.filter fun a => decide (m ≤ a)).length ≤ k := by
  have hlt : k < l.length := by
    rcases Nat.lt_or_ge k l.length with h | h
    · exact h
    · rw [List.getElem?_eq_none h] at hk; cases hk
  have hn : l[k] = n := by rw [List.getElem?_eq_getElem hlt] at hk; exact Option.some.inj hk
  have h1 : ((l.drop k).filter fun a => decide (m ≤ a)) = [] := by
    rw [List.filter_eq_nil_iff]
    intro a ha
    obtain ⟨i, hi, rfl⟩ := List.mem_iff_getElem.1 ha
    rw [List.getElem_drop]
    rw [List.length_drop] at hi
    have : l[k + i] ≤ n := by
      rcases Nat.eq_zero_or_pos i with rfl | h
      · rw [← hn]; exact Nat.le_refl _
      · rw [← hn]
        exact of_decide_eq_true (List.pairwise_iff_getElem.1 hp k (k + i) hlt (by omega) (by omega))
    simp; omega
  have h2 : l.filter (fun a => decide (m ≤ a)) = (l.take k).filter (fun a => decide (m ≤ a)) := by
    conv => lhs; rw [← List.take_append_drop k l, List.filter_append, h1, List.append_nil]
  rw [h2]
  exact Nat.le_trans (List.length_filter_le _ _) (by rw [List.length_take]; omega)

theorem insertDesc_perm (a : Nat) : ∀ l, (insertDesc a l).Perm (a :: l)
  | [] => .refl _
  | b :: l => by
    unfold insertDesc
    split
    · exact .refl _
    · exact ((insertDesc_perm a l).cons b).trans (.swap a b l)

theorem insertDesc_pairwise (a : Nat) : ∀ l : List Nat, l.Pairwise (fun a b => decide (b ≤ a) = true) →
    (insertDesc a l).Pairwise fun a b => decide (b ≤ a) = true
  | [], _ => by simp [insertDesc]
  | b :: l, h => by
    obtain ⟨h1, h2⟩ := List.pairwise_cons.1 h
    unfold insertDesc
    split
    · rename_i hb
      refine List.pairwise_cons.2 ⟨fun c hc => ?_, h⟩
      rcases List.mem_cons.1 hc with rfl | hc
      · exact decide_eq_true hb
      · have := of_decide_eq_true (h1 c hc)
        exact decide_eq_true (by omega)
    · rename_i hb
      refine List.pairwise_cons.2 ⟨fun c hc => ?_, insertDesc_pairwise a l h2⟩
      rcases List.mem_cons.1 ((insertDesc_perm a l).mem_iff.1 hc) with rfl | hc
      · exact decide_eq_true (by omega)
      · exact h1 c hc

theorem sortDesc_perm : ∀ l, (sortDesc l).Perm l
  | [] => .refl _
  | a :: l => (insertDesc_perm a (sortDesc l)).trans ((sortDesc_perm l).cons a)

theorem sortDesc_pairwise : ∀ l, (sortDesc l).Pairwise fun a b => decide (b ≤ a) = true
  | [] => .nil
  | a :: l => insertDesc_pairwise a _ (sortDesc_pairwise l)

theorem matchedDesc_pairwise (s : Srv) : (matchedDesc s).Pairwise fun a b => decide (b ≤ a) = true :=
  sortDesc_pairwise _

theorem matchedDesc_count (s : Srv) (n : Nat) (hn : 0 < n) :
    ((matchedDesc s).filter fun a => decide (n ≤ a)).length = s.holders n := by
  have h := ((sortDesc_perm ((s.log.next - 1) :: s.peers.map (·.matched))).filter
    fun a => decide (n ≤ a)).length_eq
  unfold matchedDesc
  rw [h]
  unfold Srv.holders
  rw [List.filter_cons, List.filter_map, apply_ite List.length]
  by_cases hc : n ≤ s.log.next - 1
  · rw [if_pos (by simpa using hc), if_pos (by omega)]
    simp [Function.comp_def]; omega
  · rw [if_neg (by simpa using hc), if_neg (by omega)]
    simp [Function.comp_def]

theorem matchedDesc_get (s : Srv) : (matchedDesc s)[(s.peers.length + 1) / 2]? = some (commitTarget s) := by
  have hl : (matchedDesc s).length = s.peers.length + 1 := by
    unfold matchedDesc
    rw [(sortDesc_perm _).length_eq]
    simp
  have hlt : (s.peers.length + 1) / 2 < (matchedDesc s).length := by omega
  unfold commitTarget
  rw [List.getElem?_eq_getElem hlt]
  rfl

/-- A majority is known to have the target. -/
theorem commitTarget_majority (s : Srv) (h : 0 < commitTarget s) : s.MajorityHas (commitTarget s) := by
  have h1 := countGe_take (matchedDesc_pairwise s) (matchedDesc_get s)
  rw [matchedDesc_count s _ h] at h1
  unfold Srv.MajorityHas
  omega

/-- No majority is known to have an index above the target. -/
theorem commitTarget_max (s : Srv) (n : Nat) (h : commitTarget s < n) : ¬ s.MajorityHas n := by
  have h1 := countGe_drop (matchedDesc_pairwise s) (matchedDesc_get s) h
  rw [matchedDesc_count s _ (by omega)] at h1
  unfold Srv.MajorityHas
  omega

theorem holders_congr {s s' : Srv} (h1 : s'.log = s.log) (h2 : s'.peers.map Peer.key = s.peers.map Peer.key) (n : Nat) :
    s'.holders n = s.holders n := by
  have h : ∀ ps : List Peer, (ps.filter fun p => decide (n ≤ p.matched)).length =
      ((ps.map Peer.key).filter fun k => decide (n ≤ k.2)).length := by
    intro ps
    rw [List.filter_map, List.length_map]
    rfl
  unfold Srv.holders
  rw [h, h, h1, h2]

theorem MajorityHas.congr {s s' : Srv} (h1 : s'.log = s.log) (h2 : s'.peers.map Peer.key = s.peers.map Peer.key) {n : Nat}
    (h : s.MajorityHas n) : s'.MajorityHas n := by
  have hl : s'.peers.length = s.peers.length := by
    have := congrArg List.length h2
    simpa using this
  unfold Srv.MajorityHas at *
  rw [holders_congr h1 h2, hl]
  exact h

/-! ## Answers to append requests -/

/-- Same log; the commit index advances at most to an index a majority is known to have afterwards. -/
structure Adv (s s' : Srv) : Prop where
  log : s'.log = s.log
  trace : ∃ es, s'.trace = s.trace ++ es ∧ ∀ n, Eff.advance n ∈ es → 0 < n ∧ s'.MajorityHas n

theorem Keep.adv {s s' : Srv} (h : Keep s s') : Adv s s' := by
  obtain ⟨es, a, b⟩ := h.trace
  exact ⟨h.log, es, a, fun n hn => absurd hn (b n)⟩

theorem Adv.keep {a b c : Srv} (h1 : Adv a b) (h2 : Keep b c) : Adv a c := by
  obtain ⟨e1, t1, n1⟩ := h1.trace
  obtain ⟨e2, t2, n2⟩ := h2.trace
  refine ⟨h2.log.trans h1.log, e1 ++ e2, by rw [t2, t1, List.append_assoc], fun n hn => ?_⟩
  rcases List.mem_append.1 hn with h | h
  · exact ⟨(n1 n h).1, MajorityHas.congr h2.log h2.peers (n1 n h).2⟩
  · exact absurd h (n2 n)

theorem Adv.after {a b c : Srv} (hl : b.log = a.log) (ht : b.trace = a.trace) (h : Adv b c) : Adv a c := by
  obtain ⟨e, t, n⟩ := h.trace
  exact ⟨h.log.trans hl, e, by rw [t, ht], n⟩

theorem commit_adv (s : Srv) : Adv s (commit (commitTarget s) s).2 := by
  unfold commit
  rw [bind_get]
  by_cases h : s.quickCommit < commitTarget s
  · rw [if_pos h, bind_modify, bind_emit]
    have hm : Srv.MajorityHas { s with
        quickCommit := commitTarget s, trace := s.trace ++ [.advance (commitTarget s)] } (commitTarget s) :=
      MajorityHas.congr (s := s) rfl rfl (commitTarget_majority s (by omega))
    have ha : Adv s { s with quickCommit := commitTarget s, trace := s.trace ++ [.advance (commitTarget s)] } := by
      refine ⟨rfl, [.advance (commitTarget s)], rfl, fun n hn => ?_⟩
      have : n = commitTarget s := by simpa using hn
      rw [this]; exact ⟨by omega, hm⟩
    have hk : Pres Keep (if s.role = .leader then do
        let ids ← peerIds
        forEach commitNotify ids
      else pure () : R Unit) := by
      pres kpo using k_peerIds, k_commitNotify
    exact ha.keep (hk _)
  · rw [if_neg h]; exact (kpo.refl s).adv

/-- Put a part that only keeps things behind one that advances. -/
theorem adv_bind {α β : Type} {m : R α} {k : α → R β} {s : Srv} (h1 : Adv s (m s).2) (h2 : ∀ a, Pres Keep (k a)) :
    Adv s ((m >>= k) s).2 := by
  rcases hm : m s with ⟨e | a, s1⟩
  · rw [run_bind_err hm]; rw [hm] at h1; exact h1
  · rw [run_bind_ok hm]; rw [hm] at h1; exact h1.keep (h2 a s1)

theorem acceptedResp_adv (r : Resp) (s : Srv) : Adv s (acceptedResp r s).2 := by
  unfold acceptedResp
  rw [bind_modPeer, bind_get]
  have hk : ∀ u : Unit, Pres Keep (do
      let p ← getPeer (.member r.src)
      modPeer (.member r.src) fun p => { p with pending := false }
      let s ← get
      pure (p.pending || decide (r.nextIdx < s.log.next)) : R Bool) := by
    intro u
    pres kpo using k_getPeer, k_modPeer
    exact ⟨rfl, rfl⟩
  have h := adv_bind (commit_adv (s.setPeer (.member r.src) fun p => {
    p with nextIdx := r.nextIdx, matched := subU64 r.nextIdx 1 })) hk
  refine Adv.after (a := s) ?_ ?_ h <;> rfl

theorem refusedResp_keep (r : Resp) : Pres Keep (refusedResp r) := by
  unfold refusedResp
  pres kpo using k_modPeer
  all_goals exact ⟨rfl, rfl⟩

theorem handleAppendResp_adv (r : Resp) (s : Srv) : Adv s (handleAppendResp r s).2 := by
  unfold handleAppendResp
  rw [bind_get]
  by_cases h : (s.findPeer r.src).isNone = true
  · rw [if_pos h]; exact (kpo.refl s).adv
  rw [if_neg h]
  have hk : ∀ more : Bool, Pres Keep (do
      let s ← get
      if s.role = .leader ∧ more = true then requestAppendTo r.src else pure () : R Unit) := by
    intro more
    pres kpo using k_requestAppendTo
  by_cases ha : r.accepted = true
  · simp only [if_pos ha]
    exact adv_bind (acceptedResp_adv r s) hk
  · simp only [if_neg ha]
    exact adv_bind (refusedResp_keep r s).adv hk

/-- The answer of a peer to an append request: log and recorded progress at the end back the advance. -/
theorem appendResp_adv {ty : MsgType} {r : Resp} (hr : r.type = .appendResp) (s : Srv) :
    Adv s ((Input.peerResp ty r).run s).2 := by
  show Adv s ((rpcResult (.member r.src) ty true >>= fun _ => handlePeerResp r) s).2
  have hrpc : ∃ s1, rpcResult (.member r.src) ty true s = (.ok ⟨⟩, s1) ∧ s1.log = s.log ∧ s1.trace = s.trace :=
    ⟨_, rfl, rfl, rfl⟩
  obtain ⟨s1, h1, h2, h3⟩ := hrpc
  rw [run_bind_ok h1]
  refine Adv.after h2 h3 ?_
  unfold handlePeerResp
  rw [bind_get]
  by_cases h : (s1.findPeer r.src).isNone = true
  · rw [if_pos h]; exact (kpo.refl s1).adv
  rw [if_neg h, bind_modPeer]
  have h4 : (s1.setPeer (.member r.src) fun p => { p with lastResp := s1.now }).log = s1.log := rfl
  have h5 : (s1.setPeer (.member r.src) fun p => { p with lastResp := s1.now }).trace = s1.trace := rfl
  generalize s1.setPeer (.member r.src) (fun p => { p with lastResp := s1.now }) = s2 at h4 h5 ⊢
  refine Adv.after h4 h5 ?_
  by_cases ht : s2.term < r.term
  · rw [run_bind_ok (run_updateTerm_gt ht)]
    refine ⟨rfl, [.saveState r.term (-1), .event .becomeFollower], ?_, by simp⟩
    show _ ++ _ = _
    simp
  · rw [run_bind_ok (run_updateTerm_le (by omega))]
    show Adv s2 (dispatchResp r s2).2
    unfold dispatchResp
    rw [hr]
    exact handleAppendResp_adv r s2

end Cs.Raft
