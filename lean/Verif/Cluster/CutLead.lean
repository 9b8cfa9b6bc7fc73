import Verif.Cluster.CutLocal

/-!
# A server that compacts its log keeps to the protocol: the leader
-/

namespace Cs.Raft.Cut
open Cs Cs.Raft

variable {cs : List SrvCfg} {H : History} {i : Int} {pre : List Entry}

/-! ## Append requests -/

theorem createSync_type (r : PeerRef) (a b c : Nat) (s : Srv) :
    Gives (fun q => q.type = .snpReq) (createSyncSnapshotReq r a b c s).1 := by
  unfold createSyncSnapshotReq
  intro q hq
  rw [run_bind] at hq
  rcases h1 : chooseSnap r a s with ⟨e | u, s1⟩
  · rw [h1] at hq; cases hq
  rw [h1] at hq
  simp only [] at hq
  rw [bind_get] at hq
  rcases hp : s1.peer r with _ | p
  · rw [run_bind_err (getPeer_none hp)] at hq; cases hq
  rw [run_bind_ok (getPeer_some hp)] at hq
  rcases hx : p.snpCtx with _ | ⟨snp, off⟩
  · rw [hx] at hq; cases hq
  rw [hx] at hq
  simp only [] at hq
  split at hq
  · cases hq
  · split at hq
    · cases hq
    · cases hq; rfl

/-- Append requests to a member of the peers go there. -/
theorem createAppendReq_dst (k : Int) (s : Srv) :
    Gives (fun q => q.type = .snpReq ∨ q.dst = k) (createAppendReq (.member k) s).1 := by
  unfold createAppendReq
  rw [bind_get, bind_modPeer]
  generalize hs1 : (s.setPeer (.member k) fun p => if p.nextIdx = 0 then { p with nextIdx := s.log.next } else p) = s1
  rcases hp : s1.peer (.member k) with _ | p
  · rw [run_bind_err (getPeer_none hp)]; intro a ha; cases ha
  rw [run_bind_ok (getPeer_some hp)]
  by_cases c1 : s.log.next ≤ p.nextIdx - 1
  · rw [if_pos c1]; intro a ha; cases ha
  rw [if_neg c1]
  by_cases c2 : 0 < p.nextIdx - 1 ∧ p.nextIdx - 1 < s.log.start - 1
  · rw [if_pos c2]
    intro a ha
    exact .inl (createSync_type _ _ _ _ _ a ha)
  rw [if_neg c2]
  unfold appendReqFrom
  rcases ht : termFor s1 (p.nextIdx - 1) with _ | t
  · rcases termForLog_none ht with ⟨_, h⟩ | ⟨_, _, h⟩
    · rw [run_bind_err h]; intro a ha; cases ha
    · rw [run_bind_err h]; intro a ha; cases ha
  rw [run_bind_ok (termForLog_some ht)]
  by_cases hc : s1.log.next ≤ p.nextIdx - 1 + 1 ∨ s1.log.start ≤ p.nextIdx - 1 + 1
  case neg => rw [run_bind_err (entriesFrom_err hc)]; intro a ha; cases ha
  rw [run_bind_ok (entriesFrom_ok hc), bind_get, run_bind_ok (getPeer_some hp)]
  intro a ha
  cases ha
  exact .inr (find_id hp)

theorem frame_still {ty : MsgType → Prop} {s s' : Srv} (h : Frame ty s s') (hk : Keep s s') : Still s s' := by
  have hp := hk.peers
  obtain ⟨ps, j, es, rfl, h1, h2, h3⟩ := h
  refine ⟨rfl, rfl, rfl, rfl, rfl, rfl, rfl, rfl, rfl, hp, rfl, rfl, rfl, fun hn => ?_, rfl, rfl⟩
  show j = none
  rw [hn] at h2
  cases j with
  | none => rfl
  | some p => cases h2

theorem get?_cut {l : Log} (h : l.start = pre.length + 1) {k : Nat} (hk : l.start ≤ k) :
    l.get? k = (pre ++ l.ents)[k - 1]? := by
  unfold Log.get?
  rw [if_neg (by omega), List.getElem?_append_right (by omega)]
  congr 1
  omega

theorem next_cut {l : Log} (h : l.start = pre.length + 1) : l.next = (pre ++ l.ents).length + 1 := by
  unfold Log.next; rw [h, List.length_append]; omega

theorem termFor_cut {s : Srv} (h : s.log.start = pre.length + 1) (hc : CutOk pre s.log s.smSnap s.params) {k t : Nat}
    (ht : termFor s k = some t) :
    k = 0 ∧ t = 0 ∨ s.log.start ≤ k ∧ ((pre ++ s.log.ents)[k - 1]?).map Entry.term = some t := by
  unfold termFor at ht
  by_cases h0 : k = 0
  · rw [if_pos h0] at ht; exact .inl ⟨h0, (Option.some.inj ht).symm⟩
  · rw [if_neg h0] at ht
    by_cases h1 : s.log.start ≤ k
    · rw [if_pos h1, get?_cut h h1] at ht; exact .inr ⟨h1, ht⟩
    · rw [if_neg h1] at ht
      rcases hs : s.smSnap with _ | x
      · rw [hs] at ht; cases ht
      · rw [hs] at ht
        simp only [] at ht
        by_cases h2 : k = x.lastIdx
        · have := hc.snap x hs; omega
        · rw [if_neg h2] at ht; cases ht

/-- An append request the state calls for is one the protocol allows. -/
theorem replicate_ok {s : Srv} {q : Req} (g : Good cs H i pre s) (hr : s.role = .leader) (hs : Sends s q)
    (ht : q.type = .appendReq) (hd : q.dst ≠ i) :
    Act (cs.map SrvCfg.id) H i (abs pre s) (.send q) (abs pre s) ∧ EffOk cs (.send q) := by
  cases hs with
  | append dst last t h1 h2 h3 =>
    have hn := next_cut g.start
    have hsub : s.behind last <+: (pre ++ s.log.ents).drop last := by
      unfold Srv.behind
      split
      · exact List.nil_prefix
      · rename_i hlt
        unfold Log.range
        have h4 : s.log.start ≤ last + 1 := h3.resolve_left hlt
        have hst := g.start
        have e : (pre ++ s.log.ents).drop last = s.log.ents.drop (last + 1 - s.log.start) := by
          rw [List.drop_append, List.drop_eq_nil_of_le (by omega), List.nil_append]
          congr 1
          omega
        rw [e]
        exact List.take_prefix _ _
    refine ⟨.replicate rfl g.id hd rfl hr (show last ≤ (pre ++ s.log.ents).length by omega) ?_ hsub rfl, .inr (.inl rfl), ?_⟩
    · rcases termFor_cut g.start g.cut h2 with ⟨h, _⟩ | ⟨_, h⟩
      · exact .inl h
      · exact .inr h
    · intro e he
      exact g.conf e (List.mem_of_mem_drop (hsub.subset he))
  | snapshot dst last snp y h1 h2 => cases ht
  | vote ty dst t h1 h2 => rcases h1 with rfl | rfl <;> cases ht

theorem frame_T {s s' : Srv} (h : Frame (fun _ => False) s s') (hk : Keep s s') (g : Good cs H i pre s) : T cs H i pre s s' := by
  have hst := frame_still h hk
  obtain ⟨_, _, es, e2, _, _, e3⟩ := h
  refine hst.T (es := es) (by rw [e2]) ?_ g
  intro x hx
  rcases e3 x hx with rfl | ⟨r, _, _, hf⟩
  · exact fun _ => ⟨trivial, trivial⟩
  · exact hf.elim

theorem ql_requestAppend (k : Int) : Pres (QL cs H i pre) (requestAppend (.member k)) := by
  intro s g hr
  unfold requestAppend
  rcases hp : s.peer (.member k) with _ | p
  · rw [run_bind_err (getPeer_none hp)]; exact QL.po.refl s g hr
  have hki : k ≠ i := by
    have := find_key (ps := s.peers) hp
    have hm : k ∈ s.peers.map Peer.id := List.mem_map.2 ⟨p, this.2, this.1⟩
    rw [g.ids] at hm
    simpa using (List.mem_filter.1 hm).2
  rw [run_bind_ok (getPeer_some hp)]
  split
  · exact QL.po.refl s g hr
  rw [bind_modPeer]
  have h1 := lx_modPeer (Q := QL cs H i pre) cs (.member k) (fun p => { p with busy := true }) (fun _ => ⟨rfl, rfl⟩) s g hr
  rw [run_modPeer] at h1
  generalize (s.setPeer (.member k) fun p => { p with busy := true }) = s1 at h1
  obtain ⟨t1, r1, e1⟩ := h1
  have hf := createAppendReq_frame (fun _ => False) (.member k) s1
  have hk := k_createAppendReq (.member k) s1
  have hd := createAppendReq_dst k s1
  rw [run_bind]
  rcases hc : createAppendReq (.member k) s1 with ⟨e | q, s2⟩
  · rw [hc] at hf hk
    have h2 := frame_T hf.1 hk t1.1
    exact ⟨t1.trans h2, (frame_still hf.1 hk).role.trans r1, (frame_still hf.1 hk).term.trans e1⟩
  · rw [hc] at hf hk hd
    have h2 := frame_T hf.1 hk t1.1
    have hst := frame_still hf.1 hk
    have hq := hf.2 q rfl
    refine ⟨(t1.trans h2).trans ?_, hst.role.trans r1, hst.term.trans e1⟩
    show T cs H i pre s2 { s2 with trace := s2.trace ++ [.send q] }
    have g2 : Good cs H i pre { s2 with trace := s2.trace ++ [.send q] } :=
      Still.good (s := s2)
        ⟨rfl, rfl, rfl, rfl, rfl, rfl, rfl, rfl, rfl, rfl, rfl, rfl, rfl, fun h => h, rfl, rfl⟩ h2.1
    by_cases hty : q.type = .snpReq
    · refine ⟨g2, [.send q], rfl, ?_, .one nofun⟩
      rw [List.filter_cons_of_neg (by show ¬ (q.type != .snpReq) = true; rw [hty]; decide)]
      exact .nil _
    · have ha := replicate_ok t1.1 r1 hq.1 (hq.2.resolve_right hty) (by
        rw [(hd q rfl).resolve_left hty]; exact hki)
      rw [← hst.abs] at ha
      refine T.of g2 rfl ?_ (.one ha.1 ha.2) (.one nofun)
      intro e he
      rw [List.mem_singleton.1 he]
      show (q.type != .snpReq) = true
      simpa using hty

theorem ql_requestAppendTo (k : Int) : Pres (QL cs H i pre) (requestAppendTo k) := by
  unfold requestAppendTo
  pres (QL.po) using ql_requestAppend

theorem ql_commitNotify (k : Int) : Pres (QL cs H i pre) (commitNotify k) := by
  unfold commitNotify
  pres (QL.po) using ql_requestAppend, lx_modPeer cs
  exact ⟨rfl, rfl⟩

/-! ## The commit index -/

/-- A majority has everything up to `n`, as far as the server knows. -/
def Backed (cs : List SrvCfg) (H : History) (i : Int) (pre : List Entry) (s : Srv) (n : Nat) : Prop :=
  ∃ V : List Int, V.Nodup ∧ (∀ v ∈ V, v ∈ cs.map SrvCfg.id) ∧ (cs.map SrvCfg.id).length < 2 * V.length ∧
    ∀ v ∈ V, v = i ∧ n ≤ (pre ++ s.log.ents).length ∨ Acked H v n

theorem commit_T {s : Srv} {n : Nat} (g : Good cs H i pre s) (hb : s.quickCommit < n → Backed cs H i pre s n) :
    T cs H i pre s (commit n s).2 ∧ (commit n s).2.role = s.role ∧ (commit n s).2.term = s.term := by
  unfold commit
  rw [bind_get]
  by_cases hq : s.quickCommit < n
  · rw [if_pos hq, bind_modify, bind_emit]
    have h1 : T cs H i pre s { s with quickCommit := n, trace := s.trace ++ [.advance n] } := by
      obtain ⟨V, v1, v2, v3, v4⟩ := hb hq
      exact ⟨⟨g.id, g.start, g.ids, g.servers, g.catching, g.steps, g.join, g.cut, g.conf, g.votes, g.matched⟩,
        [.advance n], rfl, .one (.advance (c := abs pre s) hq v1 v2 v3 v4) trivial, .one nofun⟩
    by_cases hr : s.role = .leader
    · rw [if_pos hr, bind_peerIds]
      obtain ⟨t2, r2, e2⟩ := pres_forEach (QL.po) (ql_commitNotify (cs := cs) (H := H) (i := i) (pre := pre))
        (List.map Peer.id s.peers) { s with quickCommit := n, trace := s.trace ++ [.advance n] } h1.1 hr
      exact ⟨h1.trans t2, r2.trans hr.symm, e2⟩
    · rw [if_neg hr]
      exact ⟨h1, rfl, rfl⟩
  · rw [if_neg hq]
    exact ⟨T.refl g, rfl, rfl⟩

variable [hm : Member cs i]

include hm

theorem Good.count {s : Srv} (g : Good cs H i pre s) : s.peers.length + 1 = (cs.map SrvCfg.id).length := by
  have := congrArg List.length g.ids
  rw [List.length_map] at this
  rw [this]
  exact filter_length hm.nodup hm.mem

/-- An index a majority is known to have. -/
theorem backed_majority {s : Srv} {n : Nat} (g : Good cs H i pre s) (hq : 0 < n) (hmaj : s.MajorityHas n) :
    Backed cs H i pre s n := by
  have hids : ∀ p ∈ s.peers, p.id ∈ cs.map SrvCfg.id ∧ p.id ≠ i := by
    intro p hp
    have h : p.id ∈ s.peers.map Peer.id := List.mem_map.2 ⟨p, hp, rfl⟩
    rw [g.ids] at h
    exact ⟨(List.mem_filter.1 h).1, by simpa using (List.mem_filter.1 h).2⟩
  have hnd : (s.peers.map Peer.id).Nodup := by rw [g.ids]; exact hm.nodup.filter _
  have hsub : ((s.peers.filter fun p => decide (n ≤ p.matched)).map Peer.id).Nodup :=
    (List.Nodup.sublist ((List.filter_sublist).map _) hnd)
  have hack : ∀ v ∈ (s.peers.filter fun p => decide (n ≤ p.matched)).map Peer.id,
      v ∈ cs.map SrvCfg.id ∧ v ≠ i ∧ Acked H v n := by
    intro v hv
    obtain ⟨p, hp, rfl⟩ := List.mem_map.1 hv
    obtain ⟨hp, hc⟩ := List.mem_filter.1 hp
    exact ⟨(hids p hp).1, (hids p hp).2, g.matched p.key (List.mem_map.2 ⟨p, hp, rfl⟩) n hq (of_decide_eq_true hc)⟩
  unfold Srv.MajorityHas Srv.holders at hmaj
  rw [g.count] at hmaj
  by_cases hn : n < s.log.next
  · rw [if_pos hn] at hmaj
    refine ⟨i :: (s.peers.filter fun p => decide (n ≤ p.matched)).map Peer.id, ?_, ?_, ?_, ?_⟩
    · exact List.nodup_cons.2 ⟨fun h => (hack i h).2.1 rfl, hsub⟩
    · intro v hv
      rcases List.mem_cons.1 hv with rfl | hv
      · exact hm.mem
      · exact (hack v hv).1
    · simp only [List.length_map, List.length_cons] at hmaj ⊢; omega
    · intro v hv
      rcases List.mem_cons.1 hv with rfl | hv
      · exact .inl ⟨rfl, by have := next_cut g.start; omega⟩
      · exact .inr (hack v hv).2.2
  · rw [if_neg hn] at hmaj
    refine ⟨(s.peers.filter fun p => decide (n ≤ p.matched)).map Peer.id, hsub, fun v hv => (hack v hv).1, ?_,
      fun v hv => .inr (hack v hv).2.2⟩
    simp only [List.length_map] at hmaj ⊢; omega

/-- The index the leader computes from the answers. -/
theorem backed_target {s : Srv} (g : Good cs H i pre s) (hq : 0 < commitTarget s) : Backed cs H i pre s (commitTarget s) :=
  backed_majority g hq (commitTarget_majority s hq)

theorem ql_requestAppendAll : Pres (QL cs H i pre) requestAppendAll := by
  intro s g hr
  unfold requestAppendAll
  rw [bind_get]
  by_cases hp : s.peers = []
  · rw [if_pos hp]
    have hlen := g.count
    rw [hp] at hlen
    obtain ⟨h1, h2, h3⟩ := commit_T (n := s.log.next - 1) g fun _ => by
      refine ⟨[i], by simp, ?_, ?_, ?_⟩
      · intro v hv; rw [List.mem_singleton.1 hv]; exact hm.mem
      · rw [← hlen]; simp
      · intro v hv
        exact .inl ⟨List.mem_singleton.1 hv, by have := next_cut g.start; omega⟩
    exact ⟨h1, h2.trans hr, h3⟩
  · rw [if_neg hp, bind_peerIds]
    exact pres_forEach (QL.po) (ql_requestAppendTo (cs := cs) (H := H) (i := i) (pre := pre)) (List.map Peer.id s.peers) s g hr

/-! ## Entries of the leader -/

omit hm in
theorem appendOwn_T {s : Srv} {e : Entry} (g : Good cs H i pre s) (hr : s.role = .leader) (ht : e.term = s.term)
    (hc : ConfOk cs e) : T cs H i pre s { s with log := s.log.append e, trace := s.trace ++ [.append e] } := by
  refine ⟨⟨g.id, g.start, g.ids, g.servers, g.catching, g.steps, g.join,
    ⟨.inr (by show s.log.ents ++ [e] ≠ []; simp), g.cut.snap, g.cut.kept⟩, ?_, g.votes, g.matched⟩, [.append e], rfl, ?_⟩
  · intro x hx
    rw [show (pre ++ (s.log.append e).ents) = (pre ++ s.log.ents) ++ [e] from (List.append_assoc _ _ _).symm] at hx
    rcases List.mem_append.1 hx with h | h
    · exact g.conf x h
    · rw [List.mem_singleton.1 h]; exact hc
  · have h := Path.one (H := H) (i := i) (cs := cs) (.appendOwn (c := abs pre s) hr ht) hc
    have e1 : abs pre { s with log := s.log.append e, trace := s.trace ++ [.append e] } =
        { abs pre s with log := (abs pre s).log ++ [e] } := by
      unfold Cut.abs
      rw [show (pre ++ (s.log.append e).ents) = (pre ++ s.log.ents) ++ [e] from (List.append_assoc _ _ _).symm]
    rw [e1]
    exact ⟨h, .one nofun⟩

omit hm in
theorem ql_appendClient : ∀ (es : List Entry), (∀ e ∈ es, ConfOk cs e) → Pres (QL cs H i pre) (appendClient es)
  | [], _ => pres_pure QL.po _
  | e :: es, hc => by
    intro s g hr
    unfold appendClient
    rw [bind_get]
    have h1 : logAppend { e with term := s.term } s = (.ok ⟨⟩, { s with
      log := s.log.append { e with term := s.term }, trace := s.trace ++ [.append { e with term := s.term }] }) := rfl
    rw [run_bind_ok h1]
    have t1 := appendOwn_T (e := { e with term := s.term }) g hr rfl (fun c h => hc e List.mem_cons_self c h)
    have h2 : Pres (QL cs H i pre) (do emit (.preCommit s.log.next { e with term := s.term }); appendClient es) :=
      pres_bind QL.po (lx_emit cs (fun _ => ⟨trivial, trivial⟩))
        fun _ => ql_appendClient es fun x hx => hc x (List.mem_cons_of_mem _ hx)
    obtain ⟨t2, r2, e2⟩ := h2 _ t1.1 hr
    exact ⟨t1.trans t2, r2, e2⟩

omit hm in
theorem ql_initialConf : Pres (QL cs H i pre) initialConf := by
  intro s g hr
  unfold initialConf
  rw [bind_get]
  by_cases h0 : s.config.logIdx = 0
  · rw [if_pos h0, bind_modify, bind_get]
    generalize hs1 : ({ s with config := { s.config with prevLogIdx := s.config.logIdx, logIdx := s.log.next } } : Srv) = s1
    have st : Still s s1 := by
      rw [← hs1]; exact ⟨rfl, rfl, rfl, rfl, rfl, rfl, rfl, rfl, rfl, rfl, rfl, rfl, rfl, fun h => h, rfl, rfl⟩
    have t1 : T cs H i pre s s1 := st.T (es := []) (by rw [← hs1]; simp) (by simp) g
    have h1 : logAppend ⟨s1.term, .conf s1.config⟩ s1 = (.ok ⟨⟩, { s1 with
      log := s1.log.append ⟨s1.term, .conf s1.config⟩, trace := s1.trace ++ [.append ⟨s1.term, .conf s1.config⟩] }) := rfl
    rw [run_bind_ok h1]
    have t2 := appendOwn_T (e := ⟨s1.term, .conf s1.config⟩) t1.1 (st.role.trans hr) rfl
      (fun c h => by cases h; exact t1.1.servers)
    generalize hs2 : ({ s1 with
      log := s1.log.append ⟨s1.term, .conf s1.config⟩,
      trace := s1.trace ++ [.append ⟨s1.term, .conf s1.config⟩] } : Srv) = s2 at t2
    have hr2 : s2.role = .leader ∧ s2.term = s.term := by rw [← hs2]; exact ⟨st.role.trans hr, st.term⟩
    have h3 := lx_mod (Q := QL cs H i pre) cs (f := fun s => { s with configChanging := true })
      (fun s => ⟨⟨rfl, rfl, rfl, rfl, rfl, rfl, rfl, rfl, rfl, rfl, rfl, rfl, rfl, fun h => h, rfl, rfl⟩, rfl⟩) s2 t2.1 hr2.1
    exact ⟨(t1.trans t2).trans h3.1, h3.2.1, h3.2.2.trans hr2.2⟩
  · rw [if_neg h0]
    exact QL.po.refl s g hr

/-! ## Leadership -/

theorem becomeLeader_T {s : Srv} (g : Good cs H i pre s) (hc : s.electionCompleted = false) (hw : Won cs H i s) (vg : Nat)
    (vd : List Int) : T cs H i pre s (becomeLeader { s with votesGranted := vg, voted := vd, electionCompleted := true }).2 := by
  unfold becomeLeader stopElectionTimer
  rw [bind_modify, bind_get, bind_modify, bind_emit]
  obtain ⟨V, v1, v2, v3, v4⟩ := hw
  have t1 : T cs H i pre s { s with
      votesGranted := vg, voted := vd, electionCompleted := true, armed := false, role := .leader,
      trace := s.trace ++ [.lead s.term] } := by
    refine ⟨⟨g.id, g.start, g.ids, g.servers, g.catching, g.steps, g.join, g.cut, g.conf, nofun, g.matched⟩,
      [.lead s.term], rfl, .one (.lead (c := abs pre s) ?_ v1 v2 v3 v4) trivial, .one nofun⟩
    show (!s.electionCompleted) = true
    rw [hc]; rfl
  have hrest : Pres (QL cs H i pre) (do
      modify fun s => { s with leader := s.id }
      modify fun s => { s with srvToJoin := none }
      let ids ← peerIds
      forEach leaderPeer ids
      initialConf
      emit (.event .becomeLeader)
      requestAppendAll) := by
    refine pres_bind QL.po (lx_mod cs fun s =>
      ⟨⟨rfl, rfl, rfl, rfl, rfl, rfl, rfl, rfl, rfl, rfl, rfl, rfl, rfl, fun h => h, rfl, rfl⟩, rfl⟩) fun _ => ?_
    refine pres_bind QL.po (lx_mod cs fun s =>
      ⟨⟨rfl, rfl, rfl, rfl, rfl, rfl, rfl, rfl, rfl, rfl, rfl, rfl, rfl, fun _ => rfl, rfl, rfl⟩, rfl⟩) fun _ => ?_
    refine pres_bind QL.po (lx_peerIds cs) fun ids => ?_
    refine pres_bind QL.po (pres_forEach QL.po (lx_leaderPeer cs) ids) fun _ => ?_
    refine pres_bind QL.po ql_initialConf fun _ => ?_
    exact pres_bind QL.po (lx_emit cs (fun _ => ⟨trivial, trivial⟩)) fun _ => ql_requestAppendAll
  exact t1.trans (hrest _ t1.1 rfl).1

end Cs.Raft.Cut
