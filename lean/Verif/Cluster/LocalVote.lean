import Verif.Cluster.LocalLead

/-!
# A server keeps to the protocol: elections
-/

namespace Cs.Raft
open Cs

variable {cs : List SrvCfg} {H : History} {i : Int}

theorem Good.raised {s : Srv} (g : Good cs H i s) (t : Nat) (r : Role) (tr : List Eff) (pv : Option (List Int × Nat)) :
    Good cs H i { s with
      prevote := pv, term := t, vote := -1, role := r, votesGranted := 0, voted := [], electionCompleted := false,
      trace := tr } :=
  ⟨g.id, g.start, g.ids, g.servers, g.catching, g.steps, g.join, g.dist, g.conf,
    fun _ => ⟨[], by simp, rfl, by simp, by simp⟩, g.matched⟩

theorem still_stepDown (s : Srv) (h : s.role = .follower) : Still s s.stepDown := by
  refine ⟨rfl, rfl, rfl, h.symm, rfl, rfl, rfl, rfl, rfl, ?_, rfl, rfl, rfl, fun _ => rfl, rfl⟩
  show (s.peers.map disableHb).map Peer.key = _
  rw [List.map_map]
  rfl

theorem newTerm_T {s : Srv} {t : Nat} (g : Good cs H i s) (h : s.term < t) : T cs H i s (s.newTerm t) := by
  have t1 : T cs H i s { s with
      term := t, vote := -1, role := .follower, votesGranted := 0, voted := [], electionCompleted := false,
      trace := s.trace ++ [.saveState t (-1)] } :=
    ⟨g.raised t .follower _ s.prevote, [.saveState t (-1)], rfl, .one (.raise (c := abs s) h nofun) trivial⟩
  refine t1.trans ?_
  exact (still_stepDown _ rfl).T (es := [.event .becomeFollower]) rfl
    (by intro e he; rw [List.mem_singleton.1 he]; exact ⟨trivial, trivial⟩) t1.1

theorem qa_updateTerm (t : Nat) : Pres (QA cs H i) (updateTerm t) := by
  intro s g
  by_cases h : s.term < t
  · rw [run_updateTerm_gt h]; exact newTerm_T g h
  · rw [run_updateTerm_le (by omega)]; exact T.refl g

/-! ## Starting an election -/

/-- State after the start of a term. -/
def Srv.candidate (s : Srv) : Srv :=
  { s with
    prevote := none, term := s.term + 1, vote := -1, role := .candidate, votesGranted := 0, voted := [],
    electionCompleted := false, trace := s.trace ++ [.saveState (s.term + 1) (-1)] }

theorem run_startTerm (s : Srv) : startTerm s = (.ok ⟨⟩, s.candidate) := rfl

theorem candidate_T {s : Srv} (g : Good cs H i s) : T cs H i s s.candidate :=
  ⟨g.raised (s.term + 1) .candidate _ none, [.saveState (s.term + 1) (-1)], rfl,
    .one (.raise (c := abs s) (Nat.lt_succ_self _) nofun) trivial⟩

/-- State after the vote for itself. -/
def Srv.selfish (s : Srv) : Srv :=
  { s with
    vote := s.id, votesGranted := s.votesGranted + 1, voted := if s.id ∈ s.voted then s.voted else s.id :: s.voted,
    trace := s.trace ++ [.saveState s.term s.id] }

theorem run_voteSelf (s : Srv) : voteSelf s = (.ok ⟨⟩, s.selfish) := rfl

variable [hm : Member cs i]
include hm

theorem selfish_T {s : Srv} (g : Good cs H i s) (h1 : s.role = .candidate) (h2 : s.vote = -1) (h3 : s.votesGranted = 0)
    (h4 : s.voted = []) : T cs H i s s.selfish := by
  refine ⟨⟨g.id, g.start, g.ids, g.servers, g.catching, g.steps, g.join, g.dist, g.conf, fun _ => ?_, g.matched⟩,
    [.saveState s.term s.id], rfl, ?_⟩
  · refine ⟨[i], by simp, ?_, ?_, ?_⟩
    · show 1 = s.votesGranted + 1
      rw [h3]
    · intro v hv
      rw [List.mem_singleton.1 hv]
      show i ∈ if s.id ∈ s.voted then s.voted else s.id :: s.voted
      rw [h4, g.id]
      simp
    · intro v hv
      rw [List.mem_singleton.1 hv]
      exact ⟨hm.mem, .inl ⟨rfl, g.id⟩⟩
  · have := Path.one (cs := cs) (Act.self (S := cs.map SrvCfg.id) (H := H) (i := i) (c := abs s) h1 h2) trivial
    unfold Cs.Raft.abs at this ⊢
    rw [g.id]
    show Path cs H i _ _ ⟨s.term, s.id, s.log.ents, s.role, !s.electionCompleted, s.quickCommit⟩
    rw [g.id]
    exact this

omit hm in
theorem askVote_T {s : Srv} (k : Int) (hk : k ≠ i) (g : Good cs H i s) (h1 : s.role = .candidate) (h2 : s.vote = i) :
    T cs H i s (askVote .voteReq k s).2 ∧ (askVote .voteReq k s).2.role = .candidate ∧
      (askVote .voteReq k s).2.vote = i := by
  unfold askVote
  rw [bind_get]
  have hn := next_one g.start
  rcases ht : termFor s (s.log.next - 1) with _ | t
  · exfalso
    unfold termFor at ht
    split at ht
    · cases ht
    · rename_i h0
      rw [if_pos (by rw [g.start]; omega), get?_one g.start h0, List.getElem?_eq_getElem (by omega)] at ht
      cases ht
  rw [run_bind_ok (termForLog_some ht), run_emit]
  refine ⟨⟨Still.good (s := s)
      ⟨rfl, rfl, rfl, rfl, rfl, rfl, rfl, rfl, rfl, rfl, rfl, rfl, rfl, fun h => h, rfl⟩ g, [_], rfl, .one ?_ ?_⟩, h1, h2⟩
  · refine .ask (c := abs s) rfl g.id hk rfl h2 h1 (show s.log.next - 1 = s.log.ents.length by omega) ?_
    show t = lastTermOf s.log.ents
    unfold lastTermOf
    rcases termFor_one g.start ht with ⟨h, h'⟩ | ⟨h, h'⟩
    · have : s.log.ents = [] := List.eq_nil_of_length_eq_zero (by omega)
      rw [this, h']; rfl
    · rw [List.getLast?_eq_getElem?]
      have e1 : s.log.next - 1 - 1 = s.log.ents.length - 1 := by omega
      rw [e1] at h'
      rcases hl : s.log.ents[s.log.ents.length - 1]? with _ | x
      · rw [hl] at h'; cases h'
      · rw [hl] at h'; exact (Option.some.inj h').symm
  · exact ⟨.inl rfl, by simp⟩

omit hm in
theorem askVotes_T : ∀ (ids : List Int) (s : Srv), (∀ k ∈ ids, k ≠ i) → Good cs H i s → s.role = .candidate → s.vote = i →
    T cs H i s (forEach (askVote .voteReq) ids s).2
  | [], s, _, g, _, _ => T.refl g
  | k :: ids, s, hk, g, h1, h2 => by
    unfold forEach
    have h := askVote_T k (hk k List.mem_cons_self) g h1 h2
    rw [run_bind]
    rcases hc : askVote .voteReq k s with ⟨e | u, s1⟩
    · rw [hc] at h; exact h.1
    · rw [hc] at h
      exact h.1.trans (askVotes_T ids s1 (fun x hx => hk x (List.mem_cons_of_mem _ hx)) h.1.1 h.2.1 h.2.2)

theorem Good.won {s : Srv} (g : Good cs H i s) (h : s.electionCompleted = false)
    (hv : (s.peers.length + 1) / 2 < s.votesGranted) : Won cs H i s := by
  obtain ⟨V, v1, v2, v3, v4⟩ := g.votes h
  have := g.count
  exact ⟨V, v1, fun v hv => (v4 v hv).1, by omega, fun v hv => (v4 v hv).2⟩

theorem askForVotes_T {s : Srv} (g : Good cs H i s) (h1 : s.role = .candidate) (h2 : s.vote = i)
    (h3 : s.electionCompleted = false) : T cs H i s (askForVotes s).2 := by
  unfold askForVotes
  rw [bind_get]
  by_cases hv : (s.peers.length + 1) / 2 < s.votesGranted
  · rw [if_pos hv, bind_modify]
    exact becomeLeader_T g h3 (g.won h3 hv) s.votesGranted s.voted
  · rw [if_neg hv, bind_peerIds]
    refine askVotes_T _ s ?_ g h1 h2
    intro k hk
    rw [g.ids] at hk
    simpa using (List.mem_filter.1 hk).2

theorem qa_becomeCandidate : Pres (QA cs H i) becomeCandidate := by
  intro s g
  unfold becomeCandidate
  rw [run_bind_ok (run_startTerm s)]
  have t1 := candidate_T g
  have t2 := selfish_T t1.1 rfl rfl rfl rfl
  have t3 := askForVotes_T (s := s.candidate.selfish) t2.1 rfl g.id rfl
  unfold requestVote
  have hv : (do voteSelf; askForVotes : R Unit) s.candidate = askForVotes s.candidate.selfish :=
    run_bind_ok (run_voteSelf s.candidate)
  rw [run_bind, hv]
  have t123 := (t1.trans t2).trans t3
  rcases hc : askForVotes s.candidate.selfish with ⟨e | u, s1⟩
  · rw [hc] at t123; exact t123
  · rw [hc] at t123
    exact t123.trans (lx_rearm (Q := QA cs H i) cs s1 t123.1)

theorem qa_requestPrevote : Pres (QA cs H i) requestPrevote := by
  unfold requestPrevote
  pres (QA.po) using qa_becomeCandidate, lx_mod cs, lx_peerIds cs, lx_askPrevote cs
  all_goals exact ⟨⟨rfl, rfl, rfl, rfl, rfl, rfl, rfl, rfl, rfl, rfl, rfl, rfl, rfl, id, rfl⟩, rfl⟩

theorem qa_handleElectionTimeout : Pres (QA cs H i) handleElectionTimeout := by
  intro s g
  unfold handleElectionTimeout
  rw [bind_modify, bind_get]
  have t1 := lx_mod (Q := QA cs H i) cs (f := fun s => { s with armed := false })
    (fun s => ⟨⟨rfl, rfl, rfl, rfl, rfl, rfl, rfl, rfl, rfl, rfl, rfl, rfl, rfl, fun h => h, rfl⟩, rfl⟩) s g
  rw [show (modify (fun s : Srv => { s with armed := false }) : R PUnit) s = (.ok ⟨⟩, { s with armed := false }) from rfl]
    at t1
  generalize ({ s with armed := false } : Srv) = s1 at t1
  rw [if_neg (by rw [t1.1.steps]; decide), if_neg (by rw [t1.1.catching]; decide)]
  refine t1.trans ?_
  have h : Pres (QA cs H i) (if s1.role = .leader then die (-1)
      else if s1.params.prevote ∧ s1.role = .follower then
        if (match s1.prevote with | some (v, _) => !v.isEmpty | none => false) then pure () else requestPrevote
      else becomeCandidate) := by
    pres (QA.po) using lx_die cs, qa_requestPrevote, qa_becomeCandidate
  exact h s1 t1.1

theorem qa_handlePrevoteResp (r : Resp) : Pres (QA cs H i) (handlePrevoteResp r) := by
  unfold handlePrevoteResp
  pres (QA.po) using lx_mod cs, lx_restart cs, qa_becomeCandidate
  all_goals exact ⟨⟨rfl, rfl, rfl, rfl, rfl, rfl, rfl, rfl, rfl, rfl, rfl, rfl, rfl, id, rfl⟩, rfl⟩

/-! ## Answers to vote requests -/

/-- The state after an answer has been counted. -/
def Srv.counted (s : Srv) (r : Resp) : Srv :=
  { s with
    voted := r.src :: s.voted, votesGranted := if r.accepted then s.votesGranted + 1 else s.votesGranted,
    electionCompleted := if s.peers.length + 1 ≤ s.voted.length + 1 then true else s.electionCompleted }

omit hm in
theorem run_handleVotingResp {s : Srv} {r : Resp}
    (h : ¬ (r.term ≠ s.term ∨ s.electionCompleted = true ∨ r.src ∈ s.voted)) :
    handleVotingResp r s =
      if (s.peers.length + 1) / 2 < (s.counted r).votesGranted then becomeLeader { s.counted r with electionCompleted := true }
      else (.ok ⟨⟩, s.counted r) := by
  unfold handleVotingResp
  rw [bind_get, if_neg h, bind_modify, bind_modify, bind_modify, bind_get]
  by_cases hv : (s.peers.length + 1) / 2 < (s.counted r).votesGranted
  · rw [if_pos hv]
    exact (if_pos hv (α := R Unit) ▸ rfl)
  · rw [if_neg hv]
    exact (if_neg hv (α := R Unit) ▸ rfl)

theorem handleVotingResp_T {s : Srv} {r : Resp} (g : Good cs H i s) (hp : (s.findPeer r.src).isSome = true)
    (ht : r.type = .voteResp) (ha : r.accepted = true → (r.src, .reply r) ∈ H ∧ r.dst = i) :
    T cs H i s (handleVotingResp r s).2 := by
  by_cases h0 : r.term ≠ s.term ∨ s.electionCompleted = true ∨ r.src ∈ s.voted
  · have : handleVotingResp r s = (.ok ⟨⟩, s) := by unfold handleVotingResp; rw [bind_get, if_pos h0]; rfl
    rw [this]; exact T.refl g
  rw [run_handleVotingResp h0]
  have hterm : r.term = s.term := Classical.not_not.1 fun h => h0 (.inl h)
  have hcount : s.electionCompleted = false := by
    cases h : s.electionCompleted
    · rfl
    · exact absurd (.inr (.inl h)) h0
  have hnew : r.src ∉ s.voted := fun h => h0 (.inr (.inr h))
  obtain ⟨V, v1, v2, v3, v4⟩ := g.votes hcount
  have hsrc : r.src ∈ cs.map SrvCfg.id := by
    unfold Srv.findPeer at hp
    rw [List.find?_isSome] at hp
    obtain ⟨p, hp, he⟩ := hp
    have h : p.id ∈ s.peers.map Peer.id := List.mem_map.2 ⟨p, hp, rfl⟩
    rw [g.ids] at h
    have he : p.id = r.src := by simpa using he
    rw [← he]
    exact (List.mem_filter.1 h).1
  have hV : ∃ W : List Int, W.Nodup ∧ W.length = (if r.accepted then s.votesGranted + 1 else s.votesGranted) ∧
      (∀ v ∈ W, v ∈ r.src :: s.voted) ∧ ∀ v ∈ W, v ∈ cs.map SrvCfg.id ∧ GrantedBy H i s.term s.vote v := by
    cases hacc : r.accepted with
    | true =>
      refine ⟨r.src :: V, List.nodup_cons.2 ⟨fun h => hnew (v3 _ h), v1⟩, by simp [v2], ?_, ?_⟩
      · intro v hv
        rcases List.mem_cons.1 hv with rfl | hv
        · exact List.mem_cons_self
        · exact List.mem_cons_of_mem _ (v3 v hv)
      · intro v hv
        rcases List.mem_cons.1 hv with rfl | hv
        · exact ⟨hsrc, .inr ⟨r, (ha hacc).1, ht, hacc, hterm, (ha hacc).2⟩⟩
        · exact v4 v hv
    | false => exact ⟨V, v1, by simp [v2], fun v hv => List.mem_cons_of_mem _ (v3 v hv), v4⟩
  obtain ⟨W, w1, w2, w3, w4⟩ := hV
  by_cases hv : (s.peers.length + 1) / 2 < (s.counted r).votesGranted
  · rw [if_pos hv]
    refine becomeLeader_T g hcount ⟨W, w1, fun v hv => (w4 v hv).1, ?_, fun v hv => (w4 v hv).2⟩
      (s.counted r).votesGranted (r.src :: s.voted)
    have := g.count
    have : W.length = (s.counted r).votesGranted := w2
    omega
  · rw [if_neg hv]
    refine ⟨⟨g.id, g.start, g.ids, g.servers, g.catching, g.steps, g.join, g.dist, g.conf,
      fun _ => ⟨W, w1, w2, w3, w4⟩, g.matched⟩, [], by rw [List.append_nil]; rfl, ?_⟩
    cases hec : (s.counted r).electionCompleted with
    | false =>
      have : abs (s.counted r) = abs s := by
        unfold Cs.Raft.abs; rw [hec, hcount]; rfl
      rw [this]; exact .nil _
    | true =>
      have : abs (s.counted r) = { abs s with counting := false } := by
        unfold Cs.Raft.abs; rw [hec]; rfl
      rw [this]; exact .quiet (.complete (c := abs s)) rfl (.nil _)

end Cs.Raft
