import Verif.Cluster.Elect

/-!
# Counting votes, and the first request of a client
-/

namespace Cs.Raft
open Cs

/-- The bookkeeping when an answer to a request for votes comes in. -/
def Srv.polledBy (L : Srv) (i : Int) : Srv :=
  ((L.setPeer (.member i) fun p => if MsgType.voteReq = .appendReq ∨ MsgType.voteReq = .snpReq then
      { p with busy := false } else p).setPeer (.member i) (resumeHb L.params)).setPeer (.member i) fun p => { p with lastResp := L.now }

theorem run_voteAnswer {L : Srv} {i : Int} {r : Resp} (h1 : r.type = .voteResp) (h2 : r.term = L.term) (h3 : r.src = i)
    (hp : i ∈ L.peers.map Peer.id) : (Input.peerResp .voteReq r).run L = handleVotingResp r (L.polledBy i) := by
  obtain ⟨p, _, _, hp⟩ := find_of_ids hp
  show (rpcResult (.member r.src) .voteReq true >>= fun _ => handlePeerResp r) L = _
  rw [h3]
  unfold rpcResult
  have e1 : (do
      let s ← get
      modPeer (.member i) fun p => if MsgType.voteReq = .appendReq ∨ MsgType.voteReq = .snpReq then
        { p with busy := false } else p
      modPeer (.member i) (if true then resumeHb s.params else slowDownHb s.params) : R Unit) L =
    (.ok ⟨⟩, (L.setPeer (.member i) fun p => if MsgType.voteReq = .appendReq ∨ MsgType.voteReq = .snpReq then
      { p with busy := false } else p).setPeer (.member i) (resumeHb L.params)) := rfl
  rw [run_bind_ok e1]
  unfold handlePeerResp
  rw [bind_get, h3]
  have e2 : (((L.setPeer (.member i) fun p => if MsgType.voteReq = .appendReq ∨ MsgType.voteReq = .snpReq then
      { p with busy := false } else p).setPeer (.member i) (resumeHb L.params)).findPeer i).isNone = false := by
    rw [find_setPeer _ _ _ (by intro p; rfl), find_setPeer _ _ _ (by intro p; split <;> rfl), hp]
    rfl
  rw [if_neg (by rw [e2]; simp), bind_modPeer]
  show (updateTerm r.term >>= fun newer => if newer = true then pure () else dispatchResp r) (L.polledBy i) = _
  rw [run_bind_ok (run_updateTerm_le (by show r.term ≤ L.term; omega))]
  show dispatchResp r _ = _
  unfold dispatchResp
  rw [h1]

theorem polledBy_ids (L : Srv) (i : Int) : (L.polledBy i).peers.map Peer.id = L.peers.map Peer.id := by
  unfold Srv.polledBy
  rw [ids_setPeer _ _ _ (by intro p; rfl), ids_setPeer _ _ _ (by intro p; rfl), ids_setPeer _ _ _ (by intro p; split <;> rfl)]

theorem polledBy_peers {L : Srv} {i : Int} {p : Peer} (h : p ∈ (L.polledBy i).peers) :
    p.lastResp = L.now ∨ p.id ≠ i ∧ p ∈ L.peers := by
  obtain ⟨q, hq, rfl⟩ := List.mem_map.1 h
  by_cases h3 : (q.id == i) = true
  · exact .inl (by simp only [h3, if_true])
  simp only [h3, if_false, Bool.false_eq_true]
  right
  refine ⟨by simpa using h3, ?_⟩
  obtain ⟨q2, hq2, rfl⟩ := List.mem_map.1 hq
  by_cases h2 : (q2.id == i) = true
  · simp only [h2, if_true] at h3; exact absurd h2 h3
  simp only [h2, if_false, Bool.false_eq_true]
  obtain ⟨q1, hq1, rfl⟩ := List.mem_map.1 hq2
  by_cases h1 : (q1.id == i) = true
  · simp only [h1, if_true] at h2
    exact absurd h1 h2
  simp only [h1, if_false, Bool.false_eq_true]
  exact hq1

/-- The times of answers: none is in the future, and those of the servers `A` came just now. -/
def Srv.HeardNow (s : Srv) (A : List Int) : Prop := ∀ p ∈ s.peers, p.lastResp ≤ s.now ∧ (p.id ∈ A → p.lastResp = s.now)

theorem heardNow_stamps {s s' : Srv} {A : List Int} (h : s.HeardNow A) (h1 : s'.now = s.now)
    (h2 : s'.peers.map Peer.stamp = s.peers.map Peer.stamp) : s'.HeardNow A := by
  intro p hp
  have : p.stamp ∈ s.peers.map Peer.stamp := by rw [← h2]; exact List.mem_map.2 ⟨p, hp, rfl⟩
  obtain ⟨q, hq, he⟩ := List.mem_map.1 this
  have e1 : q.id = p.id := congrArg Prod.fst he
  have e2 : q.lastResp = p.lastResp := congrArg (fun x => x.2.2) he
  rw [h1, ← e1, ← e2]
  exact h q hq

/-- The servers of `A` have voted for candidate `s`. -/
structure Polled (s0 : Srv) (A : List Int) (s : Srv) : Prop where
  id : s.id = s0.id
  term : s.term = s0.term
  log : s.log = s0.log
  params : s.params = s0.params
  applied : s.smCommit = s0.smCommit
  ids : s.peers.map Peer.id = s0.peers.map Peer.id
  cand : s.role = .candidate
  open_ : s.electionCompleted = false
  granted : s.votesGranted = 1 + A.length
  count : s.voted.length = 1 + A.length
  voted : ∀ k ∈ s.voted, k = s0.id ∨ k ∈ A
  heard : s.HeardNow A

/-- The leader elected by the servers of `A`. -/
structure Crowned (s0 : Srv) (A : List Int) (s' : Srv) : Prop where
  id : s'.id = s0.id
  term : s'.term = s0.term
  lead : s'.role = .leader
  params : s'.params = s0.params
  applied : s'.smCommit = s0.smCommit
  start : s'.log.start = 1
  log : s0.log.ents <+: s'.log.ents
  size : s'.log.ents.length ≤ s0.log.ents.length + 1
  ids : s'.peers.map Peer.id = s0.peers.map Peer.id
  heard : s'.HeardNow A
  next : ∀ p ∈ s'.peers, p.nextIdx ≤ s'.log.next
  asked : ∀ k ∈ s0.peers.map Peer.id, ∃ p q, s'.findPeer k = some p ∧ p.busy = true ∧ p.nextIdx = s0.log.next ∧
    .send q ∈ s'.trace ∧ ReqFor k s' s0.log.next q

theorem poll_run {s0 s : Srv} {A : List Int} {i : Int} {r : Resp} (h : Polled s0 A s) (h0 : s0.log.start = 1)
    (hm : 0 < s0.params.maxAppend) (hi : i ∈ s0.peers.map Peer.id) (hA : i ∉ A) (hne : i ≠ s0.id) (h1 : r.type = .voteResp)
    (h2 : r.term = s0.term) (h3 : r.src = i) (h4 : r.accepted = true) :
    ∃ s', (Input.peerResp .voteReq r).run { s with trace := [] } = (.ok ⟨⟩, s') ∧
      ((s0.peers.length + 1) / 2 < A.length + 2 ∧ Crowned s0 (i :: A) s' ∨ A.length + 2 ≤ (s0.peers.length + 1) / 2 ∧ Polled s0 (i :: A) s') := by
  have hlen : s.peers.length = s0.peers.length := by
    have := congrArg List.length h.ids; rwa [List.length_map, List.length_map] at this
  rw [run_voteAnswer (L := { s with trace := [] }) h1 (h2.trans h.term.symm) h3 (by show i ∈ s.peers.map Peer.id; rw [h.ids]; exact hi)]
  obtain ⟨S, hS⟩ : ∃ S : Srv, S = ({ s with trace := [] } : Srv).polledBy i := ⟨_, rfl⟩
  have c1 : S.id = s.id := by rw [hS]; rfl
  have c2 : S.term = s.term := by rw [hS]; rfl
  have c3 : S.log = s.log := by rw [hS]; rfl
  have c4 : S.params = s.params := by rw [hS]; rfl
  have c5 : S.smCommit = s.smCommit := by rw [hS]; rfl
  have c6 : S.peers.map Peer.id = s.peers.map Peer.id := by rw [hS]; exact polledBy_ids _ i
  have c7 : S.role = s.role := by rw [hS]; rfl
  have c8 : S.electionCompleted = s.electionCompleted := by rw [hS]; rfl
  have c9 : S.votesGranted = s.votesGranted := by rw [hS]; rfl
  have c10 : S.voted = s.voted := by rw [hS]; rfl
  have c11 : S.trace = [] := by rw [hS]; rfl
  have c12 : S.now = s.now := by rw [hS]; rfl
  have c13 : S.HeardNow (i :: A) := by
    intro p hp
    rw [c12]
    rw [hS] at hp
    rcases polledBy_peers hp with e | ⟨e1, e2⟩
    · have e : p.lastResp = s.now := e
      exact ⟨Nat.le_of_eq e, fun _ => e⟩
    · obtain ⟨g1, g2⟩ := h.heard p e2
      exact ⟨g1, fun hc => by
        rcases List.mem_cons.1 hc with hc | hc
        · exact absurd hc e1
        · exact g2 hc⟩
  have c14 : S.peers.length = s0.peers.length := by
    have := congrArg List.length c6; rw [List.length_map, List.length_map] at this; omega
  rw [← hS]
  clear hS
  unfold handleVotingResp
  rw [bind_get, if_neg (by
    rw [c2, c8, c10, h.open_, h2, h.term, h3]
    rintro (e | e | e)
    · exact e rfl
    · cases e
    · rcases h.voted i e with e | e
      · exact hne e
      · exact hA e), bind_modify, bind_modify, bind_modify, bind_get]
  simp only [h4, if_true]
  by_cases hq : (s0.peers.length + 1) / 2 < A.length + 2
  · rw [if_pos (by show (S.peers.length + 1) / 2 < S.votesGranted + 1; rw [c9, h.granted, c14]; omega), bind_modify]
    obtain ⟨s', e1, e2⟩ := becomeLeader_run (s := { S with
      voted := r.src :: S.voted, votesGranted := S.votesGranted + 1, electionCompleted := true })
      (by show S.log.start = 1; rw [c3, h.log, h0]) (by
        intro hc
        have hc : S.peers = [] := hc
        rw [h.ids.symm.trans c6.symm, hc] at hi; cases hi) (by show 0 < S.params.maxAppend; rw [c4, h.params]; exact hm) (by
        show sends S.trace = []; rw [c11]; rfl)
    refine ⟨s', e1, .inl ⟨hq, ?_⟩⟩
    have g1 : s'.peers.map Peer.stamp = S.peers.map Peer.stamp := e2.stamps
    have g2 : s'.now = S.now := e2.now
    have g3 : s0.log = S.log := by rw [c3, h.log]
    have g4 : s0.peers.map Peer.id = S.peers.map Peer.id := by rw [c6, h.ids]
    refine ⟨e2.id.trans (c1.trans h.id), e2.term.trans (c2.trans h.term), e2.lead, e2.params.trans (c4.trans h.params),
      e2.applied.trans (c5.trans h.applied), e2.start, by rw [g3]; exact e2.log, by rw [g3]; exact e2.size, (ids_of_stamps g1).trans g4.symm, heardNow_stamps c13 g2 g1, e2.next,
      by rw [g3, g4]; exact e2.asked⟩
  · rw [if_neg (by show ¬ (S.peers.length + 1) / 2 < S.votesGranted + 1; rw [c9, h.granted, c14]; omega)]
    refine ⟨_, rfl, .inr ⟨by omega, c1.trans h.id, c2.trans h.term, c3.trans h.log, c4.trans h.params, c5.trans h.applied, c6.trans h.ids,
      c7.trans h.cand, ?_, ?_, ?_, ?_, c13⟩⟩
    · show (if S.peers.length + 1 ≤ (r.src :: S.voted).length then true else S.electionCompleted) = false
      rw [if_neg (by rw [List.length_cons, c10, h.count, c14]; omega), c8, h.open_]
    · show S.votesGranted + 1 = _
      rw [c9, h.granted, List.length_cons]; omega
    · show (r.src :: S.voted).length = _
      rw [List.length_cons, c10, h.count, List.length_cons]; omega
    · show ∀ k ∈ r.src :: S.voted, _
      intro k hk
      rcases List.mem_cons.1 hk with rfl | hk
      · exact .inr (by rw [h3]; exact List.mem_cons_self ..)
      · rw [c10] at hk
        rcases h.voted k hk with e | e
        · exact .inl e
        · exact .inr (List.mem_cons_of_mem _ e)

/-! ## A request of a client -/

theorem toI32_le {x : Int} (h : 0 ≤ x) : toI32 x ≤ x := by
  unfold toI32
  rw [BitVec.toInt_ofInt, Int.bmod_def]
  split <;> omega

/-- A leader that has just heard from a majority says that it leads. -/
theorem isLeader_heard {s : Srv} {A : List Int} (hr : s.role = .leader) (hu : 0 ≤ s.params.electionUpper) (hA : A.Nodup)
    (hs : ∀ k ∈ A, k ∈ s.peers.map Peer.id) (hh : s.HeardNow A) (hm : s.peers.length + 1 < 2 * (A.length + 1)) :
    ∃ b, isLeader s = (.ok true, { s with elapsed := b }) := by
  unfold isLeader
  rw [bind_get]
  by_cases hc : s.role = .leader ∧ 0 < s.peers.length ∧ s.params.electionUpper * 2 < s.elapsed
  · rw [if_pos hc, bind_modify, bind_get]
    have hne : s.peers ≠ [] := List.length_pos_iff.1 hc.2.1
    obtain ⟨n, hn, ⟨p, hp1, hp2⟩, hh2⟩ := respTimes_get s hne
    have hmaj : s.HeardMajority := by
      unfold Srv.HeardMajority
      have : A.length ≤ (s.recent.map Peer.id).length := by
        refine nodup_length_le hA fun k hk => ?_
        obtain ⟨p, p1, p2⟩ := List.mem_map.1 (hs k hk)
        refine List.mem_map.2 ⟨p, List.mem_filter.2 ⟨p1, decide_eq_true ?_⟩, p2⟩
        have := (hh p p1).2 (by rw [p2]; exact hk)
        rw [this]
        omega
      rw [List.length_map] at this
      omega
    have h1 := hh2.2 hmaj
    have h2 := (hh p hp1).1
    rw [hn]
    refine ⟨toI32 ((s.now : Int) - (n : Nat)), ?_⟩
    have h3 : toI32 ((s.now : Int) - (n : Nat)) ≤ s.params.electionUpper * 2 := by
      refine Int.le_trans (toI32_le ?_) h1
      show 0 ≤ (s.now : Int) - n
      omega
    rw [if_neg (by show ¬ s.params.electionUpper * 2 < toI32 _; omega)]
    show (Except.ok (decide (s.role = .leader)), _) = _
    rw [decide_eq_true hr]
  · rw [if_neg hc]
    refine ⟨s.elapsed, ?_⟩
    show (Except.ok (decide (s.role = .leader)), _) = _
    rw [decide_eq_true hr]

/-- Requests to peers that have not answered the last one are not sent. -/
theorem busy_all : ∀ (ks : List Int) (s : Srv), (∀ k ∈ ks, ∃ p, s.findPeer k = some p ∧ p.busy = true) →
    forEach requestAppendTo ks s = (.ok ⟨⟩, s)
  | [], _, _ => rfl
  | k :: ks, s, h => by
    obtain ⟨p, h1, h2⟩ := h k (List.mem_cons_self ..)
    have e1 : requestAppendTo k s = (.ok ⟨⟩, s) := by
      unfold requestAppendTo requestAppend
      rw [run_bind_ok (a := false) (s' := s)]
      · rfl
      · rw [run_bind_ok (getPeer_some (show s.peer (.member k) = some p from h1)), if_pos h2]; rfl
    show (requestAppendTo k >>= fun _ => forEach requestAppendTo ks) s = _
    rw [run_bind_ok e1, busy_all ks s fun x hx => h x (List.mem_cons_of_mem _ hx)]

/-- The request of a client for one command. -/
def command (d : Nat) : Req := { type := .clientReq, term := 0, src := 0, dst := 0, lastTerm := 0, lastIdx := 0, commitIdx := 0, entries := [⟨0, .app d⟩] }

theorem client_run {s : Srv} {A : List Int} {d : Nat} (hr : s.role = .leader) (hu : 0 ≤ s.params.electionUpper) (hA : A.Nodup)
    (hs : ∀ k ∈ A, k ∈ s.peers.map Peer.id) (hh : s.HeardNow A) (hm : s.peers.length + 1 < 2 * (A.length + 1)) (hne : s.peers ≠ [])
    (hb : ∀ k ∈ s.peers.map Peer.id, ∃ p, s.findPeer k = some p ∧ p.busy = true) :
    ∃ b, (Input.req (command d)).run { s with trace := [] } = (.ok ⟨⟩, { s with
      elapsed := b, log := s.log.append ⟨s.term, .app d⟩,
      trace := [.append ⟨s.term, .app d⟩, .preCommit s.log.next ⟨s.term, .app d⟩, .reply { type := .appendResp, term := s.term, src := s.id, dst := s.leader, nextIdx := s.log.next + 1, accepted := true }] }) := by
  obtain ⟨b, e1⟩ := isLeader_heard (s := { s with trace := [] }) hr hu hA hs hh hm
  refine ⟨b, ?_⟩
  show (processReq (command d) >>= fun a => emit (.reply a)) _ = _
  have e2 : processReq (command d) { s with trace := [] } = handleCliReq (command d) { s with trace := [] } := by
    rw [run_processReq]; rfl
  have e3 : handleCliReq (command d) { s with trace := [] } = (.ok { type := .appendResp, term := s.term, src := s.id, dst := s.leader, nextIdx := s.log.next + 1, accepted := true }, { s with
      elapsed := b, log := s.log.append ⟨s.term, .app d⟩,
      trace := [.append ⟨s.term, .app d⟩, .preCommit s.log.next ⟨s.term, .app d⟩] }) := by
    unfold handleCliReq
    rw [run_bind_ok e1, bind_get, if_neg (by rintro ⟨_, h⟩; cases h), if_neg (by intro h; cases h)]
    have e4 : appendClient (command d).entries { s with trace := [], elapsed := b } = (.ok ⟨⟩, { s with
      elapsed := b, log := s.log.append ⟨s.term, .app d⟩,
      trace := [.append ⟨s.term, .app d⟩, .preCommit s.log.next ⟨s.term, .app d⟩] }) := rfl
    have e5 : requestAppendAll { s with
      elapsed := b, log := s.log.append ⟨s.term, .app d⟩,
      trace := [.append ⟨s.term, .app d⟩, .preCommit s.log.next ⟨s.term, .app d⟩] } = (.ok ⟨⟩, { s with
      elapsed := b, log := s.log.append ⟨s.term, .app d⟩,
      trace := [.append ⟨s.term, .app d⟩, .preCommit s.log.next ⟨s.term, .app d⟩] }) := by
      unfold requestAppendAll
      rw [bind_get, if_neg hne, bind_peerIds]
      exact busy_all _ _ hb
    rw [run_bind_ok e4, run_bind_ok e5, bind_get]
    show (Except.ok _, _) = _
    rw [show (s.log.append ⟨s.term, .app d⟩).next = s.log.next + 1 from Log.next_append _ _]
  rw [run_bind_ok (e2.trans e3)]
  rfl

end Cs.Raft
