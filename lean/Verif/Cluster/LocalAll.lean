import Verif.Cluster.LocalReq

/-!
# A server keeps to the protocol: all inputs
-/

namespace Cs.Raft
open Cs

variable {cs : List SrvCfg} {H : History} {i : Int}

/-- Inputs of a server in a cluster with fixed members. -/
def Allowed (cs : List SrvCfg) (H : History) (i : Int) : Input → Prop
  | .req m => ReqOk cs H i m
  | .peerResp _ r => (r.type = .voteResp ∨ r.type = .appendResp) ∧
      (r.accepted = true → (r.src, .reply r) ∈ H ∧ (r.type = .voteResp → r.dst = i) ∧ (r.type = .appendResp → 0 < r.nextIdx))
  | .extResp _ _ r => r.type = .prevoteResp
  | .extErr _ r => r.type = .prevoteReq
  | .retry _ => False
  | .snapDone _ _ => False
  | _ => True

theorem subU64_one {n : Nat} (h : 0 < n) : subU64 n 1 ≤ n - 1 := by
  unfold subU64
  have : n + 2 ^ 64 - 1 = n - 1 + 2 ^ 64 := by omega
  rw [this, Nat.add_mod_right]
  exact Nat.mod_le _ _

/-! ## Answers -/

variable [hm : Member cs i]
include hm

omit hm in
theorem acked_T {s : Srv} {r : Resp} (g : Good cs H i s) (h1 : (r.src, .reply r) ∈ H) (h2 : r.type = .appendResp)
    (h3 : r.accepted = true) (h4 : 0 < r.nextIdx) : T cs H i s
      (s.setPeer (.member r.src) fun p => { p with nextIdx := r.nextIdx, matched := subU64 r.nextIdx 1 }) := by
  have hids : (s.peers.map fun p => if p.id == r.src then
      { p with nextIdx := r.nextIdx, matched := subU64 r.nextIdx 1 } else p).map Peer.id = s.peers.map Peer.id := by
    rw [List.map_map]
    apply List.map_congr_left
    intro p _
    show Peer.id (if p.id == r.src then _ else p) = p.id
    split <;> rfl
  refine ⟨⟨g.id, g.start, hids.trans g.ids, g.servers, g.catching, g.steps, g.join, g.dist, g.conf, g.votes, ?_⟩, [],
    (List.append_nil _).symm, .nil _⟩
  intro k hk n hn hle
  have hk : k ∈ (s.peers.map fun p => if p.id == r.src then
      { p with nextIdx := r.nextIdx, matched := subU64 r.nextIdx 1 } else p).map Peer.key := hk
  rw [List.map_map] at hk
  obtain ⟨p, hp, rfl⟩ := List.mem_map.1 hk
  by_cases hc : p.id = r.src
  · have e : ((Peer.key ∘ fun p => if p.id == r.src then
        { p with nextIdx := r.nextIdx, matched := subU64 r.nextIdx 1 } else p) p) = (p.cfg, subU64 r.nextIdx 1) := by
      show Peer.key (if p.id == r.src then _ else p) = _
      rw [if_pos (by simpa using hc)]
      rfl
    rw [e] at hle ⊢
    have hc : p.cfg.id = r.src := hc
    show Acked H p.cfg.id n
    rw [hc]
    have := subU64_one h4
    have hle : n ≤ subU64 r.nextIdx 1 := hle
    exact ⟨r, h1, h2, h3, by omega⟩
  · have e : ((Peer.key ∘ fun p => if p.id == r.src then
        { p with nextIdx := r.nextIdx, matched := subU64 r.nextIdx 1 } else p) p) = p.key := by
      show Peer.key (if p.id == r.src then _ else p) = _
      rw [if_neg (by simpa using hc)]
    rw [e] at hle ⊢
    exact g.matched p.key (List.mem_map.2 ⟨p, hp, rfl⟩) n hn hle

theorem acceptedResp_T {s : Srv} {r : Resp} (g : Good cs H i s) (h1 : (r.src, .reply r) ∈ H) (h2 : r.type = .appendResp)
    (h3 : r.accepted = true) (h4 : 0 < r.nextIdx) : T cs H i s (acceptedResp r s).2 := by
  unfold acceptedResp
  rw [bind_modPeer, bind_get]
  have t1 := acked_T g h1 h2 h3 h4
  generalize (s.setPeer (.member r.src) fun p => { p with nextIdx := r.nextIdx, matched := subU64 r.nextIdx 1 }) = s1 at t1
  have t2 := (commit_T (n := commitTarget s1) t1.1 fun hq => backed_target t1.1 (by omega)).1
  rw [run_bind]
  rcases hc : commit (commitTarget s1) s1 with ⟨e | u, s2⟩
  · rw [hc] at t2; exact t1.trans t2
  rw [hc] at t2
  refine (t1.trans t2).trans ?_
  have h : Pres (QA cs H i) (do
      let p ← getPeer (.member r.src)
      modPeer (.member r.src) fun p => { p with pending := false }
      let s ← get
      pure (p.pending || decide (r.nextIdx < s.log.next)) : R Bool) := by
    pres (QA.po) using lx_getPeer cs, lx_modPeer cs
    exact ⟨rfl, rfl⟩
  exact h s2 t2.1

/-- Send more if the server is the leader. -/
def sendMore (k : Int) (more : Bool) : R Unit := do
  let s ← get
  if s.role = .leader ∧ more = true then requestAppendTo k else pure ()

omit hm in
theorem qa_sendMore (k : Int) (b : Bool) : Pres (QA cs H i) (sendMore k b) := by
  intro s g
  unfold sendMore
  rw [bind_get]
  split
  · rename_i h
    exact (ql_requestAppendTo k s g h.1).1
  · exact T.refl g

theorem handleAppendResp_T {s : Srv} {r : Resp} (g : Good cs H i s) (h2 : r.type = .appendResp)
    (h3 : r.accepted = true → (r.src, .reply r) ∈ H ∧ 0 < r.nextIdx) : T cs H i s (handleAppendResp r s).2 := by
  unfold handleAppendResp
  rw [bind_get]
  split
  · exact T.refl g
  by_cases ha : r.accepted = true
  · rw [if_pos ha]
    have t1 := acceptedResp_T g (h3 ha).1 h2 ha (h3 ha).2
    show T cs H i s ((acceptedResp r >>= sendMore r.src) s).2
    rw [run_bind]
    rcases hc : acceptedResp r s with ⟨e | b, s1⟩
    · rw [hc] at t1; exact t1
    · rw [hc] at t1
      exact t1.trans (qa_sendMore r.src b s1 t1.1)
  · rw [if_neg ha]
    show T cs H i s ((refusedResp r >>= sendMore r.src) s).2
    exact pres_bind QA.po (lx_refusedResp (Q := QA cs H i) cs r) (fun b => qa_sendMore r.src b) s g

omit hm in
theorem keys_find {ps qs : List Peer} (h : ps.map Peer.key = qs.map Peer.key) (k : Int) :
    (ps.find? (·.id == k)).isSome = (qs.find? (·.id == k)).isSome := by
  have e : ∀ l : List Peer, (l.find? (·.id == k)).isSome = (l.map Peer.id).any (· == k) := by
    intro l
    rw [List.any_map, Bool.eq_iff_iff, List.find?_isSome, List.any_eq_true]
    rfl
  rw [e, e, ids_of_keys' h]

theorem handlePeerResp_T {s : Srv} {ty : MsgType} {r : Resp} (g : Good cs H i s) (ha : Allowed cs H i (.peerResp ty r)) :
    T cs H i s (handlePeerResp r s).2 := by
  unfold handlePeerResp
  rw [bind_get]
  by_cases hp : (s.findPeer r.src).isNone = true
  · rw [if_pos hp]; exact T.refl g
  rw [if_neg hp, bind_modPeer]
  have st := still_setPeer s (.member r.src) (fun p => { p with lastResp := s.now }) (fun _ => ⟨rfl, rfl⟩)
  have t1 := st.T (cs := cs) (H := H) (i := i) (es := []) (List.append_nil _).symm (by simp) g
  have hp1 : ((s.setPeer (.member r.src) fun p => { p with lastResp := s.now }).findPeer r.src).isSome = true := by
    unfold Srv.findPeer
    rw [keys_find st.peers]
    cases h : s.peers.find? (·.id == r.src)
    · exact absurd (show (s.findPeer r.src).isNone = true by unfold Srv.findPeer; rw [h]; rfl) hp
    · rfl
  generalize (s.setPeer (.member r.src) fun p => { p with lastResp := s.now }) = s1 at t1 hp1
  by_cases hlt : s1.term < r.term
  · rw [run_bind_ok (run_updateTerm_gt hlt)]
    exact t1.trans (newTerm_T t1.1 hlt)
  · rw [run_bind_ok (run_updateTerm_le (by omega))]
    refine t1.trans ?_
    show T cs H i s1 (dispatchResp r s1).2
    rcases ha.1 with h | h
    · have : dispatchResp r s1 = handleVotingResp r s1 := by unfold dispatchResp; rw [h]
      rw [this]
      exact handleVotingResp_T t1.1 hp1 h fun hacc => ⟨(ha.2 hacc).1, (ha.2 hacc).2.1 h⟩
    · have : dispatchResp r s1 = handleAppendResp r s1 := by unfold dispatchResp; rw [h]
      rw [this]
      exact handleAppendResp_T t1.1 h fun hacc => ⟨(ha.2 hacc).1, (ha.2 hacc).2.2 h⟩

/-! ## Heartbeats, the application -/

omit hm in
theorem qa_handleHbTimeout (k : Int) : Pres (QA cs H i) (handleHbTimeout (.member k)) := by
  intro s g
  unfold handleHbTimeout
  rw [bind_modPeer, bind_get]
  have t1 := (still_setPeer s (.member k) (fun p => { p with hbArmed := false }) (fun _ => ⟨rfl, rfl⟩)).T
    (cs := cs) (H := H) (i := i) (es := []) (List.append_nil _).symm (by simp) g
  generalize (s.setPeer (.member k) fun p => { p with hbArmed := false }) = s1 at t1
  refine t1.trans ?_
  split
  · rename_i h
    have hq : Pres (QL cs H i) (do
        let _ ← requestAppend (.member k)
        modPeer (.member k) fun p => if p.hbEnabled then { p with hbArmed := true } else p) := by
      pres (QL.po) using ql_requestAppend, lx_modPeer cs
      all_goals exact ⟨rfl, rfl⟩
    exact (hq s1 t1.1 h).1
  · exact T.refl t1.1

theorem replicateLog_T {s : Srv} (d : Nat) (g : Good cs H i s) : T cs H i s (replicateLog d s).2 := by
  unfold replicateLog
  obtain ⟨b, el, hb, hlead⟩ := isLeader_run s
  rw [run_bind_ok hb]
  have st : Still s { s with elapsed := el } :=
    ⟨rfl, rfl, rfl, rfl, rfl, rfl, rfl, rfl, rfl, rfl, rfl, rfl, rfl, fun h => h, rfl⟩
  have t1 : T cs H i s { s with elapsed := el } := st.T (es := []) (List.append_nil _).symm (by simp) g
  have hr1 : b = true → ({ s with elapsed := el } : Srv).role = .leader := hlead
  generalize ({ s with elapsed := el } : Srv) = s1 at t1 hr1
  split
  · rename_i hb2
    rw [bind_get]
    have t2 := appendOwn_T (e := ⟨s1.term, .app d⟩) t1.1 (hr1 hb2) rfl (fun c h => nomatch h)
    have h1 : logAppend ⟨s1.term, .app d⟩ s1 = (.ok ⟨⟩, { s1 with
      log := s1.log.append ⟨s1.term, .app d⟩, trace := s1.trace ++ [.append ⟨s1.term, .app d⟩] }) := rfl
    rw [run_bind_ok h1]
    have hr2 := hr1 hb2
    refine (t1.trans t2).trans ?_
    have h3 : Pres (QL cs H i) (do requestAppendAll; pure false : R Bool) :=
      pres_bind QL.po ql_requestAppendAll fun _ => pres_pure QL.po _
    exact (h3 _ t2.1 hr2).1
  · exact t1

/-! ## The commit thread -/

theorem run_reconfigure_same {s : Srv} {c : Config} (g : Good cs H i s) (hc : c.servers = cs) :
    reconfigure c s = (.ok ⟨⟩, { s with config := c }) := by
  have h1 : (c.servers.filter fun x => (s.findPeer x.id).isNone && x.id != s.id) = [] := by
    rw [List.filter_eq_nil_iff]
    intro x hx
    rw [hc] at hx
    rw [g.id]
    by_cases hxi : x.id = i
    · simp [hxi]
    · have hm : x.id ∈ s.peers.map Peer.id := by
        rw [g.ids]
        exact List.mem_filter.2 ⟨List.mem_map.2 ⟨x, hx, rfl⟩, by simpa using hxi⟩
      obtain ⟨p, hp, he⟩ := List.mem_map.1 hm
      have : (s.findPeer x.id).isSome = true := by
        unfold Srv.findPeer
        rw [List.find?_isSome]
        exact ⟨p, hp, by simpa using he⟩
      cases hf : s.findPeer x.id
      · rw [hf] at this; cases this
      · simp
  have hhas : ∀ k, k ∈ cs.map SrvCfg.id → c.has k = true := by
    intro k hk
    obtain ⟨x, hx, rfl⟩ := List.mem_map.1 hk
    unfold Config.has
    rw [List.any_eq_true, hc]
    exact ⟨x, hx, by simp⟩
  have h2 : (((s.peers.map Peer.id).filter fun k => !c.has k) ++ if c.has s.id then [] else [s.id]) = [] := by
    rw [g.id, if_pos (hhas i hm.mem), List.append_nil, List.filter_eq_nil_iff]
    intro k hk
    rw [g.ids] at hk
    rw [hhas k (List.mem_filter.1 hk).1]
    simp
  unfold reconfigure
  rw [bind_get, h1, h2]
  rfl

theorem commitConf_T {s : Srv} {c : Config} (g : Good cs H i s) (hc : c.servers = cs) : T cs H i s (commitConf c s).2 := by
  unfold commitConf
  rw [bind_emit, bind_modify, bind_get]
  have t1 : T cs H i s { s with trace := s.trace ++ [.saveConfig c], configChanging := false } :=
    Still.T (es := [.saveConfig c])
      ⟨rfl, rfl, rfl, rfl, rfl, rfl, rfl, rfl, rfl, rfl, rfl, rfl, rfl, fun h => h, rfl⟩ rfl
      (by intro x hx; rw [List.mem_singleton.1 hx]; exact ⟨trivial, hc⟩) g
  generalize ({ s with trace := s.trace ++ [.saveConfig c], configChanging := false } : Srv) = s1 at t1
  have hfin : ∀ s2 : Srv, T cs H i s1 s2 →
      T cs H i s ({ s2 with catchingUp := if c.has s2.id then false else s2.catchingUp } : Srv) := by
    intro s2 t2
    refine (t1.trans t2).trans ?_
    have : (if c.has s2.id then false else s2.catchingUp) = s2.catchingUp := by
      rw [t2.1.catching]; split <;> rfl
    rw [this]
    exact T.refl t2.1
  by_cases h : s1.config.logIdx < c.logIdx
  · simp only [if_pos h]
    rw [run_bind_ok (run_reconfigure_same t1.1 hc)]
    refine hfin { s1 with config := c } ?_
    have g1 := t1.1
    exact ⟨⟨g1.id, g1.start, g1.ids, hc, g1.catching, g1.steps, g1.join, g1.dist, g1.conf, g1.votes, g1.matched⟩, [],
      (List.append_nil _).symm, .nil _⟩
  · simp only [if_neg h]
    exact hfin s1 (T.refl t1.1)

theorem applyOne_T {s : Srv} (g : Good cs H i s) : T cs H i s (applyOne s).2 := by
  unfold applyOne
  rw [bind_get]
  by_cases ha : s.canApply = true
  · rw [if_pos ha, bind_modify]
    have hq : s.smCommit < s.quickCommit := by
      unfold Srv.canApply at ha
      rw [Bool.and_eq_true, decide_eq_true_eq] at ha
      exact ha.1
    have st : Still s { s with smCommit := s.smCommit + 1 } :=
      ⟨rfl, rfl, rfl, rfl, rfl, rfl, rfl, rfl, rfl, rfl, rfl, rfl, rfl, fun h => h, rfl⟩
    have t1 : T cs H i s { s with smCommit := s.smCommit + 1 } :=
      st.T (es := []) (List.append_nil _).symm (by simp) g
    have hq1 : s.smCommit < ({ s with smCommit := s.smCommit + 1 } : Srv).quickCommit := hq
    generalize ({ s with smCommit := s.smCommit + 1 } : Srv) = s1 at t1 hq1
    refine t1.trans ?_
    rcases he : s1.log.get? (s.smCommit + 1) with _ | e
    · rcases entryToApply_none he with ⟨h1, _⟩ | ⟨_, h1⟩
      · have := t1.1.start; omega
      · rw [run_bind_err h1]; exact T.refl t1.1
    rw [run_bind_ok (entryToApply_some he)]
    rw [get?_one t1.1.start (by omega)] at he
    have he : s1.log.ents[s.smCommit]? = some e := he
    have t2 : T cs H i s1 (applyEntry (s.smCommit + 1) e s1).2 := by
      have ap : applyEntry (s.smCommit + 1) e = match e.val with
        | .app _ => emit (.commit (s.smCommit + 1) e)
        | .conf c => commitConf c
        | _ => pure () := rfl
      rw [ap]
      rcases hv : e.val with d | c | c | k | _ | _
      · exact ⟨Still.good (s := s1)
          ⟨rfl, rfl, rfl, rfl, rfl, rfl, rfl, rfl, rfl, rfl, rfl, rfl, rfl, fun h => h, rfl⟩ t1.1, [_], rfl,
          .one (.apply (c := abs s1) hq1 he) trivial⟩
      · exact commitConf_T t1.1 (t1.1.conf e (List.mem_of_getElem? he) c hv)
      all_goals exact T.refl t1.1
    rw [run_bind]
    rcases hc : applyEntry (s.smCommit + 1) e s1 with ⟨f | u, s2⟩
    · rw [hc] at t2; exact t2
    · rw [hc] at t2
      refine t2.trans ?_
      have : snapshotAndCompact (s.smCommit + 1) s2 = (.ok ⟨⟩, s2) := by
        unfold snapshotAndCompact
        have hw : wantsSnapshot s2 (s.smCommit + 1) = false := by
          unfold wantsSnapshot
          rw [t2.1.dist]
          simp
        rw [bind_get, hw]
        rfl
      simp only []
      rw [this]
      exact T.refl t2.1
  · rw [if_neg ha]; exact T.refl g

/-! ## All inputs -/

/-- Every allowed input leads along effects the protocol allows, wherever its code stops. -/
theorem allowed_T {s : Srv} {x : Input} (g : Good cs H i s) (ha : Allowed cs H i x) : T cs H i s (x.run s).2 := by
  cases x with
  | req m => exact req_T g ha
  | peerResp ty r =>
    show T cs H i s ((rpcResult (.member r.src) ty true >>= fun _ => handlePeerResp r) s).2
    have t1 := lx_rpcResult (Q := QA cs H i) cs (.member r.src) ty true s g
    rw [run_bind]
    rcases hc : rpcResult (.member r.src) ty true s with ⟨e | u, s1⟩
    · rw [hc] at t1; exact t1
    · rw [hc] at t1
      exact t1.trans (handlePeerResp_T t1.1 ha)
  | extResp p ty r =>
    show T cs H i s ((rpcResult p ty true >>= fun _ => handleExtResp r) s).2
    refine pres_bind QA.po (lx_rpcResult (Q := QA cs H i) cs p ty true) (fun _ => ?_) s g
    have : handleExtResp r = (get >>= fun _ => handlePrevoteResp r) := by
      unfold handleExtResp
      rw [show r.type = .prevoteResp from ha]
    rw [this]
    exact pres_bind QA.po (pres_get QA.po) fun _ => qa_handlePrevoteResp r
  | peerErr r => exact lx_rpcResult (Q := QA cs H i) cs _ _ _ s g
  | extErr p r =>
    show T cs H i s ((rpcResult p r.type false >>= fun _ => handleExtErr r) s).2
    refine pres_bind QA.po (lx_rpcResult (Q := QA cs H i) cs p r.type false) (fun _ => ?_) s g
    have : handleExtErr r = (get >>= fun _ => pure ()) := by
      unfold handleExtErr
      rw [show r.type = .prevoteReq from ha]
    rw [this]
    exact pres_bind QA.po (pres_get QA.po) fun _ => pres_pure QA.po _
  | retry r => exact ha.elim
  | electionTimeout => exact qa_handleElectionTimeout s g
  | hbTimeout k => exact qa_handleHbTimeout k s g
  | apply => exact applyOne_T g
  | snapDone snp ok => exact ha.elim
  | replicate d =>
    show T cs H i s ((replicateLog d >>= fun _ => pure ()) s).2
    have t1 := replicateLog_T d g
    rw [run_bind]
    rcases hc : replicateLog d s with ⟨e | u, s1⟩
    · rw [hc] at t1; exact t1
    · rw [hc] at t1; exact t1
  | tick n =>
    exact Still.T (es := []) ⟨rfl, rfl, rfl, rfl, rfl, rfl, rfl, rfl, rfl, rfl, rfl, rfl, rfl, fun h => h, rfl⟩
      (List.append_nil _).symm (by simp) g

end Cs.Raft
