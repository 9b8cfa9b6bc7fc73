import Verif.Cluster.Local

/-!
# A server keeps to the protocol: the leader
-/

namespace Cs.Raft
open Cs

variable {cs : List SrvCfg} {H : History} {i : Int}

/-! ## Append requests -/

theorem find_key {ps : List Peer} {k : Int} {p : Peer} (h : ps.find? (·.id == k) = some p) : p.id = k ∧ p ∈ ps := by
  refine ⟨?_, List.mem_of_find?_eq_some h⟩
  have := List.find?_some h
  simpa using this

theorem find_id {s : Srv} {k : Int} {p : Peer} (h : s.peer (.member k) = some p) : p.id = k := (find_key h).1

/-- Requests to a member of the peers go there. -/
theorem createAppendReq_dst (k : Int) (s : Srv) (hl : s.log.start = 1) :
    Gives (fun q => q.dst = k) (createAppendReq (.member k) s).1 := by
  unfold createAppendReq
  rw [bind_get, bind_modPeer]
  generalize hs1 : (s.setPeer (.member k) fun p => if p.nextIdx = 0 then { p with nextIdx := s.log.next } else p) = s1
  rcases hp : s1.peer (.member k) with _ | p
  · rw [run_bind_err (getPeer_none hp)]; intro a ha; cases ha
  rw [run_bind_ok (getPeer_some hp)]
  by_cases c1 : s.log.next ≤ p.nextIdx - 1
  · rw [if_pos c1]; intro a ha; cases ha
  rw [if_neg c1]
  rw [if_neg (by omega)]
  unfold appendReqFrom
  rcases ht : termFor s1 (p.nextIdx - 1) with _ | t
  · rcases termForLog_none ht with ⟨_, h⟩ | ⟨_, _, h⟩
    · rw [run_bind_err h]; intro a ha; cases ha
    · rw [run_bind_err h]; intro a ha; cases ha
  rw [run_bind_ok (termForLog_some ht)]
  by_cases hc : s1.log.next ≤ p.nextIdx - 1 + 1 ∨ s1.log.start ≤ p.nextIdx - 1 + 1
  case neg => rw [run_bind_err (entriesFrom_err hc)]; intro a ha; cases ha
  rw [run_bind_ok (entriesFrom_ok hc), bind_get, run_bind_ok (getPeer_some hp)]
  intro a ha
  cases ha
  exact find_id hp

theorem frame_still {ty : MsgType → Prop} {s s' : Srv} (h : Frame ty s s') (hk : Keep s s') : Still s s' := by
  have hp := hk.peers
  obtain ⟨ps, j, es, rfl, h1, h2, h3⟩ := h
  refine ⟨rfl, rfl, rfl, rfl, rfl, rfl, rfl, rfl, rfl, hp, rfl, rfl, rfl, fun hn => ?_, rfl⟩
  show j = none
  rw [hn] at h2
  cases j with
  | none => rfl
  | some p => cases h2

theorem get?_one {l : Log} (h : l.start = 1) {k : Nat} (hk : k ≠ 0) : l.get? k = l.ents[k - 1]? := by
  unfold Log.get?
  rw [h, if_neg (by omega)]

theorem next_one {l : Log} (h : l.start = 1) : l.next = l.ents.length + 1 := by unfold Log.next; rw [h]; omega

theorem termFor_one {s : Srv} (h : s.log.start = 1) {k t : Nat} (ht : termFor s k = some t) :
    k = 0 ∧ t = 0 ∨ k ≠ 0 ∧ (s.log.ents[k - 1]?).map Entry.term = some t := by
  unfold termFor at ht
  by_cases h0 : k = 0
  · rw [if_pos h0] at ht; exact .inl ⟨h0, (Option.some.inj ht).symm⟩
  · rw [if_neg h0, if_pos (by omega), get?_one h h0] at ht; exact .inr ⟨h0, ht⟩

/-- An append request the state calls for is one the protocol allows. -/
theorem replicate_ok {s : Srv} {q : Req} (g : Good cs H i s) (hr : s.role = .leader) (hs : Sends s q) (ht : isRepl q.type)
    (hd : q.dst ≠ i) : Act (cs.map SrvCfg.id) H i (abs s) (.send q) (abs s) ∧ EffOk cs (.send q) := by
  cases hs with
  | append dst last t h1 h2 _ =>
    have hn := next_one g.start
    have hsub : ∀ k, (if s.log.next ≤ last + 1 then [] else s.log.range (last + 1) k) <+: s.log.ents.drop last := by
      intro k
      split
      · exact List.nil_prefix
      · unfold Log.range
        rw [g.start]
        exact List.take_prefix _ _
    refine ⟨.replicate rfl g.id hd rfl hr (show last ≤ s.log.ents.length by omega) ?_ (hsub _) rfl, .inr (.inl rfl), ?_⟩
    · rcases termFor_one g.start h2 with ⟨h, _⟩ | ⟨_, h⟩
      · exact .inl h
      · exact .inr h
    · intro e he
      exact g.conf e (List.mem_of_mem_drop ((hsub _).subset he))
  | snapshot dst last snp y h1 h2 => have := g.start; omega
  | vote ty dst t h1 h2 => rcases h1 with rfl | rfl <;> rcases ht with h | h <;> cases h

theorem frame_T {s s' : Srv} (h : Frame (fun _ => False) s s') (hk : Keep s s') (g : Good cs H i s) : T cs H i s s' := by
  have hst := frame_still h hk
  obtain ⟨_, _, es, e2, _, _, e3⟩ := h
  refine hst.T (es := es) (by rw [e2]) ?_ g
  intro x hx
  rcases e3 x hx with rfl | ⟨r, _, _, hf⟩
  · exact ⟨trivial, trivial⟩
  · exact hf.elim

theorem ql_requestAppend (k : Int) : Pres (QL cs H i) (requestAppend (.member k)) := by
  intro s g hr
  unfold requestAppend
  rcases hp : s.peer (.member k) with _ | p
  · rw [run_bind_err (getPeer_none hp)]; exact QL.po.refl s g hr
  have hki : k ≠ i := by
    have := find_key (ps := s.peers) hp
    have hm : k ∈ s.peers.map Peer.id := List.mem_map.2 ⟨p, this.2, this.1⟩
    rw [g.ids] at hm
    simpa using (List.mem_filter.1 hm).2
  rw [run_bind_ok (getPeer_some hp)]
  split
  · exact QL.po.refl s g hr
  rw [bind_modPeer]
  have h1 := lx_modPeer (Q := QL cs H i) cs (.member k) (fun p => { p with busy := true }) (fun _ => ⟨rfl, rfl⟩) s g hr
  rw [run_modPeer] at h1
  generalize (s.setPeer (.member k) fun p => { p with busy := true }) = s1 at h1
  obtain ⟨t1, r1, e1⟩ := h1
  have hf := createAppendReq_frame (fun _ => False) (.member k) s1
  have hk := k_createAppendReq (.member k) s1
  have hd := createAppendReq_dst k s1 t1.1.start
  rw [run_bind]
  rcases hc : createAppendReq (.member k) s1 with ⟨e | q, s2⟩
  · rw [hc] at hf hk
    have h2 := frame_T hf.1 hk t1.1
    exact ⟨t1.trans h2, (frame_still hf.1 hk).role.trans r1, (frame_still hf.1 hk).term.trans e1⟩
  · rw [hc] at hf hk hd
    have h2 := frame_T hf.1 hk t1.1
    have hst := frame_still hf.1 hk
    have hq := hf.2 q rfl
    have ha := replicate_ok t1.1 r1 hq.1 hq.2 (by rw [hd q rfl]; exact hki)
    rw [← hst.abs] at ha
    refine ⟨(t1.trans h2).trans ?_, hst.role.trans r1, hst.term.trans e1⟩
    show T cs H i s2 { s2 with trace := s2.trace ++ [.send q] }
    exact ⟨Still.good (s := s2)
        ⟨rfl, rfl, rfl, rfl, rfl, rfl, rfl, rfl, rfl, rfl, rfl, rfl, rfl, fun h => h, rfl⟩ h2.1, [.send q], rfl,
      .one ha.1 ha.2⟩

theorem ql_requestAppendTo (k : Int) : Pres (QL cs H i) (requestAppendTo k) := by
  unfold requestAppendTo
  pres (QL.po) using ql_requestAppend

theorem ql_commitNotify (k : Int) : Pres (QL cs H i) (commitNotify k) := by
  unfold commitNotify
  pres (QL.po) using ql_requestAppend, lx_modPeer cs
  exact ⟨rfl, rfl⟩

/-! ## The commit index -/

/-- A majority has everything up to `n`, as far as the server knows. -/
def Backed (cs : List SrvCfg) (H : History) (i : Int) (s : Srv) (n : Nat) : Prop :=
  ∃ V : List Int, V.Nodup ∧ (∀ v ∈ V, v ∈ cs.map SrvCfg.id) ∧ (cs.map SrvCfg.id).length < 2 * V.length ∧
    ∀ v ∈ V, v = i ∧ n ≤ s.log.ents.length ∨ Acked H v n

theorem commit_T {s : Srv} {n : Nat} (g : Good cs H i s) (hb : s.quickCommit < n → Backed cs H i s n) :
    T cs H i s (commit n s).2 ∧ (commit n s).2.role = s.role ∧ (commit n s).2.term = s.term := by
  unfold commit
  rw [bind_get]
  by_cases hq : s.quickCommit < n
  · rw [if_pos hq, bind_modify, bind_emit]
    have h1 : T cs H i s { s with quickCommit := n, trace := s.trace ++ [.advance n] } := by
      obtain ⟨V, v1, v2, v3, v4⟩ := hb hq
      exact ⟨⟨g.id, g.start, g.ids, g.servers, g.catching, g.steps, g.join, g.dist, g.conf, g.votes, g.matched⟩,
        [.advance n], rfl, .one (.advance (c := abs s) hq v1 v2 v3 v4) trivial⟩
    by_cases hr : s.role = .leader
    · rw [if_pos hr, bind_peerIds]
      obtain ⟨t2, r2, e2⟩ := pres_forEach (QL.po) (ql_commitNotify (cs := cs) (H := H) (i := i))
        (List.map Peer.id s.peers) { s with quickCommit := n, trace := s.trace ++ [.advance n] } h1.1 hr
      exact ⟨h1.trans t2, r2.trans hr.symm, e2⟩
    · rw [if_neg hr]
      exact ⟨h1, rfl, rfl⟩
  · rw [if_neg hq]
    exact ⟨T.refl g, rfl, rfl⟩

variable [hm : Member cs i]

omit hm in
theorem filter_length : ∀ {l : List Int}, l.Nodup → i ∈ l → (l.filter (· != i)).length + 1 = l.length
  | a :: l, hn, hi => by
    obtain ⟨h1, h2⟩ := List.nodup_cons.1 hn
    by_cases ha : a = i
    · subst ha
      rw [List.filter_cons_of_neg (by simp)]
      have : l.filter (· != a) = l := by
        rw [List.filter_eq_self]
        intro b hb
        have : b ≠ a := fun h => h1 (h ▸ hb)
        simpa using this
      rw [this]; rfl
    · rw [List.filter_cons_of_pos (by simpa using ha)]
      have := filter_length h2 ((List.mem_cons.1 hi).resolve_left fun h => ha h.symm)
      simp only [List.length_cons]
      omega

include hm

theorem Good.count {s : Srv} (g : Good cs H i s) : s.peers.length + 1 = (cs.map SrvCfg.id).length := by
  have := congrArg List.length g.ids
  rw [List.length_map] at this
  rw [this]
  exact filter_length hm.nodup hm.mem

/-- An index a majority is known to have. -/
theorem backed_majority {s : Srv} {n : Nat} (g : Good cs H i s) (hq : 0 < n) (hmaj : s.MajorityHas n) :
    Backed cs H i s n := by
  have hids : ∀ p ∈ s.peers, p.id ∈ cs.map SrvCfg.id ∧ p.id ≠ i := by
    intro p hp
    have h : p.id ∈ s.peers.map Peer.id := List.mem_map.2 ⟨p, hp, rfl⟩
    rw [g.ids] at h
    exact ⟨(List.mem_filter.1 h).1, by simpa using (List.mem_filter.1 h).2⟩
  have hnd : (s.peers.map Peer.id).Nodup := by rw [g.ids]; exact hm.nodup.filter _
  have hsub : ((s.peers.filter fun p => decide (n ≤ p.matched)).map Peer.id).Nodup :=
    (List.Nodup.sublist ((List.filter_sublist).map _) hnd)
  have hack : ∀ v ∈ (s.peers.filter fun p => decide (n ≤ p.matched)).map Peer.id,
      v ∈ cs.map SrvCfg.id ∧ v ≠ i ∧ Acked H v n := by
    intro v hv
    obtain ⟨p, hp, rfl⟩ := List.mem_map.1 hv
    obtain ⟨hp, hc⟩ := List.mem_filter.1 hp
    exact ⟨(hids p hp).1, (hids p hp).2, g.matched p.key (List.mem_map.2 ⟨p, hp, rfl⟩) n hq (of_decide_eq_true hc)⟩
  unfold Srv.MajorityHas Srv.holders at hmaj
  rw [g.count] at hmaj
  by_cases hn : n < s.log.next
  · rw [if_pos hn] at hmaj
    refine ⟨i :: (s.peers.filter fun p => decide (n ≤ p.matched)).map Peer.id, ?_, ?_, ?_, ?_⟩
    · exact List.nodup_cons.2 ⟨fun h => (hack i h).2.1 rfl, hsub⟩
    · intro v hv
      rcases List.mem_cons.1 hv with rfl | hv
      · exact hm.mem
      · exact (hack v hv).1
    · simp only [List.length_map, List.length_cons] at hmaj ⊢; omega
    · intro v hv
      rcases List.mem_cons.1 hv with rfl | hv
      · exact .inl ⟨rfl, by have := next_one g.start; omega⟩
      · exact .inr (hack v hv).2.2
  · rw [if_neg hn] at hmaj
    refine ⟨(s.peers.filter fun p => decide (n ≤ p.matched)).map Peer.id, hsub, fun v hv => (hack v hv).1, ?_,
      fun v hv => .inr (hack v hv).2.2⟩
    simp only [List.length_map] at hmaj ⊢; omega

/-- The index the leader computes from the answers. -/
theorem backed_target {s : Srv} (g : Good cs H i s) (hq : 0 < commitTarget s) : Backed cs H i s (commitTarget s) :=
  backed_majority g hq (commitTarget_majority s hq)

theorem ql_requestAppendAll : Pres (QL cs H i) requestAppendAll := by
  intro s g hr
  unfold requestAppendAll
  rw [bind_get]
  by_cases hp : s.peers = []
  · rw [if_pos hp]
    have hlen := g.count
    rw [hp] at hlen
    obtain ⟨h1, h2, h3⟩ := commit_T (n := s.log.next - 1) g fun _ => by
      refine ⟨[i], by simp, ?_, ?_, ?_⟩
      · intro v hv; rw [List.mem_singleton.1 hv]; exact hm.mem
      · rw [← hlen]; simp
      · intro v hv
        exact .inl ⟨List.mem_singleton.1 hv, by have := next_one g.start; omega⟩
    exact ⟨h1, h2.trans hr, h3⟩
  · rw [if_neg hp, bind_peerIds]
    exact pres_forEach (QL.po) (ql_requestAppendTo (cs := cs) (H := H) (i := i)) (List.map Peer.id s.peers) s g hr

/-! ## Entries of the leader -/

omit hm in
theorem appendOwn_T {s : Srv} {e : Entry} (g : Good cs H i s) (hr : s.role = .leader) (ht : e.term = s.term)
    (hc : ConfOk cs e) : T cs H i s { s with log := s.log.append e, trace := s.trace ++ [.append e] } := by
  refine ⟨⟨g.id, g.start, g.ids, g.servers, g.catching, g.steps, g.join, g.dist, ?_, g.votes, g.matched⟩, [.append e], rfl,
    .one (.appendOwn (c := abs s) hr ht) hc⟩
  intro x hx
  rcases List.mem_append.1 (show x ∈ s.log.ents ++ [e] from hx) with h | h
  · exact g.conf x h
  · rw [List.mem_singleton.1 h]; exact hc

omit hm in
theorem ql_appendClient : ∀ (es : List Entry), (∀ e ∈ es, ConfOk cs e) → Pres (QL cs H i) (appendClient es)
  | [], _ => pres_pure QL.po _
  | e :: es, hc => by
    intro s g hr
    unfold appendClient
    rw [bind_get]
    have h1 : logAppend { e with term := s.term } s = (.ok ⟨⟩, { s with
      log := s.log.append { e with term := s.term }, trace := s.trace ++ [.append { e with term := s.term }] }) := rfl
    rw [run_bind_ok h1]
    have t1 := appendOwn_T (e := { e with term := s.term }) g hr rfl (fun c h => hc e List.mem_cons_self c h)
    have h2 : Pres (QL cs H i) (do emit (.preCommit s.log.next { e with term := s.term }); appendClient es) :=
      pres_bind QL.po (lx_emit cs ⟨trivial, trivial⟩)
        fun _ => ql_appendClient es fun x hx => hc x (List.mem_cons_of_mem _ hx)
    obtain ⟨t2, r2, e2⟩ := h2 _ t1.1 hr
    exact ⟨t1.trans t2, r2, e2⟩

omit hm in
theorem ql_initialConf : Pres (QL cs H i) initialConf := by
  intro s g hr
  unfold initialConf
  rw [bind_get]
  by_cases h0 : s.config.logIdx = 0
  · rw [if_pos h0, bind_modify, bind_get]
    generalize hs1 : ({ s with config := { s.config with prevLogIdx := s.config.logIdx, logIdx := s.log.next } } : Srv) = s1
    have st : Still s s1 := by
      rw [← hs1]; exact ⟨rfl, rfl, rfl, rfl, rfl, rfl, rfl, rfl, rfl, rfl, rfl, rfl, rfl, fun h => h, rfl⟩
    have t1 : T cs H i s s1 := st.T (es := []) (by rw [← hs1]; simp) (by simp) g
    have h1 : logAppend ⟨s1.term, .conf s1.config⟩ s1 = (.ok ⟨⟩, { s1 with
      log := s1.log.append ⟨s1.term, .conf s1.config⟩, trace := s1.trace ++ [.append ⟨s1.term, .conf s1.config⟩] }) := rfl
    rw [run_bind_ok h1]
    have t2 := appendOwn_T (e := ⟨s1.term, .conf s1.config⟩) t1.1 (st.role.trans hr) rfl
      (fun c h => by cases h; exact t1.1.servers)
    generalize hs2 : ({ s1 with
      log := s1.log.append ⟨s1.term, .conf s1.config⟩,
      trace := s1.trace ++ [.append ⟨s1.term, .conf s1.config⟩] } : Srv) = s2 at t2
    have hr2 : s2.role = .leader ∧ s2.term = s.term := by rw [← hs2]; exact ⟨st.role.trans hr, st.term⟩
    have h3 := lx_mod (Q := QL cs H i) cs (f := fun s => { s with configChanging := true })
      (fun s => ⟨⟨rfl, rfl, rfl, rfl, rfl, rfl, rfl, rfl, rfl, rfl, rfl, rfl, rfl, fun h => h, rfl⟩, rfl⟩) s2 t2.1 hr2.1
    exact ⟨(t1.trans t2).trans h3.1, h3.2.1, h3.2.2.trans hr2.2⟩
  · rw [if_neg h0]
    exact QL.po.refl s g hr

/-! ## Leadership -/

/-- Votes of a majority. -/
def Won (cs : List SrvCfg) (H : History) (i : Int) (s : Srv) : Prop :=
  ∃ V : List Int, V.Nodup ∧ (∀ v ∈ V, v ∈ cs.map SrvCfg.id) ∧ (cs.map SrvCfg.id).length < 2 * V.length ∧
    ∀ v ∈ V, GrantedBy H i s.term s.vote v

theorem becomeLeader_T {s : Srv} (g : Good cs H i s) (hc : s.electionCompleted = false) (hw : Won cs H i s) (vg : Nat)
    (vd : List Int) : T cs H i s (becomeLeader { s with votesGranted := vg, voted := vd, electionCompleted := true }).2 := by
  unfold becomeLeader stopElectionTimer
  rw [bind_modify, bind_get, bind_modify, bind_emit]
  obtain ⟨V, v1, v2, v3, v4⟩ := hw
  have t1 : T cs H i s { s with
      votesGranted := vg, voted := vd, electionCompleted := true, armed := false, role := .leader,
      trace := s.trace ++ [.lead s.term] } := by
    refine ⟨⟨g.id, g.start, g.ids, g.servers, g.catching, g.steps, g.join, g.dist, g.conf, nofun, g.matched⟩,
      [.lead s.term], rfl, .one (.lead (c := abs s) ?_ v1 v2 v3 v4) trivial⟩
    show (!s.electionCompleted) = true
    rw [hc]; rfl
  have hrest : Pres (QL cs H i) (do
      modify fun s => { s with leader := s.id }
      modify fun s => { s with srvToJoin := none }
      let ids ← peerIds
      forEach leaderPeer ids
      initialConf
      emit (.event .becomeLeader)
      requestAppendAll) := by
    refine pres_bind QL.po (lx_mod cs fun s =>
      ⟨⟨rfl, rfl, rfl, rfl, rfl, rfl, rfl, rfl, rfl, rfl, rfl, rfl, rfl, fun h => h, rfl⟩, rfl⟩) fun _ => ?_
    refine pres_bind QL.po (lx_mod cs fun s =>
      ⟨⟨rfl, rfl, rfl, rfl, rfl, rfl, rfl, rfl, rfl, rfl, rfl, rfl, rfl, fun _ => rfl, rfl⟩, rfl⟩) fun _ => ?_
    refine pres_bind QL.po (lx_peerIds cs) fun ids => ?_
    refine pres_bind QL.po (pres_forEach QL.po (lx_leaderPeer cs) ids) fun _ => ?_
    refine pres_bind QL.po ql_initialConf fun _ => ?_
    exact pres_bind QL.po (lx_emit cs ⟨trivial, trivial⟩) fun _ => ql_requestAppendAll
  exact t1.trans (hrest _ t1.1 rfl).1

end Cs.Raft
