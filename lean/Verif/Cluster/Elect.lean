import Verif.Cluster.PropsCalm
import Verif.Raft.PropsCatch
import Verif.Raft.PropsStand
import Verif.Cluster.Spares

/-!
# Elections, step by step

What exactly a server without compaction does when its timer expires, when it is asked for its vote and when it is elected.
-/

namespace Cs.Raft
open Cs

/-! ## The timer expires -/

/-- The request for votes of a server. -/
def Srv.ballot (s : Srv) (k : Int) : Req :=
  { type := .voteReq, term := s.term, src := s.id, dst := k, lastTerm := s.log.lastTerm, lastIdx := s.log.next - 1,
    commitIdx := s.quickCommit }

theorem last_get {l : Log} (h : l.start = 1) : l.next - 1 = 0 ∧ l.lastTerm = 0 ∨ 0 < l.next - 1 ∧ ∃ e, l.get? (l.next - 1) = some e ∧ l.lastTerm = e.term := by
  have h1 : l.lastTerm = match l.ents.getLast? with | some e => e.term | none => 0 := rfl
  have h2 : l.next - 1 = l.ents.length := by unfold Log.next; omega
  rw [List.getLast?_eq_getElem?] at h1
  by_cases h0 : l.ents.length = 0
  · rw [List.getElem?_eq_none (by omega)] at h1
    exact .inl ⟨by omega, h1⟩
  · rw [List.getElem?_eq_getElem (show l.ents.length - 1 < l.ents.length by omega)] at h1
    refine .inr ⟨by omega, _, ?_, h1⟩
    rw [h2]
    unfold Log.get?
    rw [if_neg (by omega), h, List.getElem?_eq_getElem]

theorem lastTerm_run {s : Srv} (h : s.log.start = 1) : termForLog (s.log.next - 1) s = (.ok s.log.lastTerm, s) := by
  apply termForLog_some
  unfold termFor
  rcases last_get h with ⟨h1, h2⟩ | ⟨h1, e, h2, h3⟩
  · rw [if_pos h1, h2]
  · rw [if_neg (by omega), if_pos (by omega), h2, h3]; rfl

theorem askAll_run : ∀ (ids : List Int) {s : Srv}, s.log.start = 1 →
    forEach (askVote .voteReq) ids s = (.ok ⟨⟩, { s with trace := s.trace ++ ids.map fun k => .send (s.ballot k) })
  | [], s, _ => by
    show (Except.ok PUnit.unit, s) = _
    rw [List.map_nil, List.append_nil]
  | k :: ids, s, h => by
    have h1 : askVote .voteReq k s = (.ok ⟨⟩, { s with trace := s.trace ++ [.send (s.ballot k)] }) := by
      unfold askVote
      rw [bind_get, run_bind_ok (lastTerm_run h)]
      rfl
    show (askVote .voteReq k >>= fun _ => forEach (askVote .voteReq) ids) s = _
    rw [run_bind_ok h1, askAll_run ids (s := { s with trace := s.trace ++ [.send (s.ballot k)] }) h]
    show (Except.ok PUnit.unit, ({ s with trace := s.trace ++ [Eff.send (s.ballot k)] ++ _ } : Srv)) = _
    rw [List.append_assoc]
    rfl

/-- The state of a candidate that has asked for votes. -/
def Srv.stood (s : Srv) : Srv :=
  { s with
    armed := true, prevote := none, term := s.term + 1, vote := s.id, role := .candidate, votesGranted := 1, voted := [s.id],
    electionCompleted := false,
    trace := [.saveState (s.term + 1) (-1), .saveState (s.term + 1) s.id] ++
      (s.peers.map Peer.id).map fun k => .send ({ s with term := s.term + 1 }.ballot k) }

theorem timeout_run {s : Srv} (h1 : s.role ≠ .leader) (h2 : s.stepsToDown = 0) (h3 : s.catchingUp = false) (h4 : s.peers ≠ [])
    (h5 : s.params.prevote = false) (h6 : s.log.start = 1) :
    Input.electionTimeout.run { s with trace := [] } = (.ok ⟨⟩, s.stood) := by
  have hl : 1 ≤ s.peers.length := List.length_pos_iff.2 h4
  show handleElectionTimeout _ = _
  unfold handleElectionTimeout
  rw [bind_modify, bind_get, if_neg (show ¬ 0 < s.stepsToDown by omega),
    if_neg (show ¬ s.catchingUp = true by rw [h3]; exact Bool.false_ne_true), if_neg (show ¬ s.role = .leader from h1),
    if_neg (show ¬ (s.params.prevote = true ∧ s.role = .follower) by rw [h5]; exact fun h => Bool.false_ne_true h.1)]
  unfold becomeCandidate
  have e1 : startTerm { s with trace := [], armed := false } = (.ok ⟨⟩, { s with
      trace := [.saveState (s.term + 1) (-1)], armed := false, prevote := none, term := s.term + 1, vote := -1, role := .candidate,
      votesGranted := 0, voted := [], electionCompleted := false }) := rfl
  rw [run_bind_ok e1]
  unfold requestVote
  have e2 : voteSelf { s with
      trace := [.saveState (s.term + 1) (-1)], armed := false, prevote := none, term := s.term + 1, vote := -1, role := .candidate,
      votesGranted := 0, voted := [], electionCompleted := false } = (.ok ⟨⟩, { s with
      trace := [.saveState (s.term + 1) (-1), .saveState (s.term + 1) s.id], armed := false, prevote := none, term := s.term + 1,
      vote := s.id, role := .candidate, votesGranted := 1, voted := [s.id], electionCompleted := false }) := rfl
  have e3 : askForVotes { s with
      trace := [.saveState (s.term + 1) (-1), .saveState (s.term + 1) s.id], armed := false, prevote := none, term := s.term + 1,
      vote := s.id, role := .candidate, votesGranted := 1, voted := [s.id], electionCompleted := false } =
      (.ok ⟨⟩, { s.stood with armed := false }) := by
    unfold askForVotes
    rw [bind_get, if_neg (by show ¬ (s.peers.length + 1) / 2 < 1; omega), bind_peerIds]
    exact (askAll_run (s.peers.map Peer.id) (s := { s with
      trace := [.saveState (s.term + 1) (-1), .saveState (s.term + 1) s.id], armed := false, prevote := none, term := s.term + 1,
      vote := s.id, role := .candidate, votesGranted := 1, voted := [s.id], electionCompleted := false }) h6)
  have e4 : (voteSelf >>= fun _ => askForVotes) { s with
      trace := [.saveState (s.term + 1) (-1)], armed := false, prevote := none, term := s.term + 1, vote := -1, role := .candidate,
      votesGranted := 0, voted := [], electionCompleted := false } = (.ok ⟨⟩, { s.stood with armed := false }) :=
    (run_bind_ok e2).trans e3
  rw [run_bind_ok e4]
  unfold rearm
  rw [bind_get]
  have e5 : ∀ s1 : Srv, s1.role = .candidate → s1.catchingUp = false →
      (if s1.role ≠ .leader then restartElectionTimer else pure () : R Unit) s1 = (.ok ⟨⟩, { s1 with armed := true }) := by
    intro s1 c1 c2
    rw [if_pos (by rw [c1]; exact fun h => by cases h), run_restart]
    unfold Srv.rearmed
    rw [c2, show (s1.armed || !false) = true by cases s1.armed <;> rfl]
  exact e5 _ rfl h3

/-! ## A request for a vote -/

/-- The positive answer of `F` to a request for votes. -/
def Srv.grant (F : Srv) (q : Req) : Resp :=
  { type := .voteResp, term := q.term, src := F.id, dst := q.src, nextIdx := F.log.next, accepted := true }

theorem ballot_run {F : Srv} {q : Req} (h1 : q.type = .voteReq) (h2 : F.term < q.term) :
    ∃ F', (Input.req q).run { F with trace := [] } = (.ok ⟨⟩, F') ∧ F'.log = F.log ∧ F'.term = q.term ∧ F'.role = .follower ∧
      F'.smCommit = F.smCommit ∧
      (upToDate q F.log = true → Eff.reply (F.grant q) ∈ F'.trace) := by
  have e0 : ({ F with trace := [] } : Srv).heard q =
      { ({ F with trace := [] } : Srv).newTerm q.term with stepsToDown := if 0 < F.stepsToDown then 2 else F.stepsToDown } := by
    unfold Srv.heard
    rw [if_pos (.inr (.inl h1)), if_pos h2]
  have e1 : processReq q { F with trace := [] } = handleVoteReq q (({ F with trace := [] } : Srv).heard q) := by
    rw [run_processReq]
    unfold dispatch
    rw [h1]
  rw [run_handleVoteReq, e0] at e1
  show ∃ F', (processReq q >>= fun r => emit (.reply r)) { F with trace := [] } = _ ∧ _
  by_cases hu : upToDate q F.log = true
  · rw [if_pos ⟨rfl, hu, .inr rfl⟩] at e1
    rw [run_bind_ok e1]
    refine ⟨_, rfl, rfl, rfl, rfl, rfl, fun _ => ?_⟩
    exact List.mem_append_right _ (List.mem_singleton.2 rfl)
  · rw [if_neg (fun h => hu h.2.1)] at e1
    rw [run_bind_ok e1]
    exact ⟨_, rfl, rfl, rfl, rfl, rfl, fun h => absurd h hu⟩

/-! ## The new leader -/

theorem ids_of_stamps {s s' : Srv} (h : s'.peers.map Peer.stamp = s.peers.map Peer.stamp) : s'.peers.map Peer.id = s.peers.map Peer.id := by
  have := congrArg (List.map Prod.fst) h
  rw [List.map_map, List.map_map] at this
  exact this

/-- A new leader while it prepares its peers: `todo` are left. -/
structure Crowning (s0 : Srv) (todo : List Int) (s : Srv) : Prop where
  id : s.id = s0.id
  term : s.term = s0.term
  log : s.log = s0.log
  params : s.params = s0.params
  now : s.now = s0.now
  applied : s.smCommit = s0.smCommit
  lead : s.role = .leader
  trace : s.trace = s0.trace
  stamps : s.peers.map Peer.stamp = s0.peers.map Peer.stamp
  ready : ∀ p ∈ s.peers, p.id ∉ todo → p.nextIdx = s0.log.next ∧ p.busy = false

theorem stamps_setPeer (s : Srv) (k : Int) (f : Peer → Peer) (hf : ∀ p, (f p).stamp = p.stamp) :
    (s.setPeer (.member k) f).peers.map Peer.stamp = s.peers.map Peer.stamp := by
  show (s.peers.map fun p => if p.id == k then f p else p).map Peer.stamp = _
  rw [List.map_map]
  refine List.map_congr_left fun p _ => ?_
  show Peer.stamp (if p.id == k then f p else p) = _
  split
  · exact hf p
  · rfl

theorem crowning_step {s0 s : Srv} {k : Int} {todo : List Int} (h : Crowning s0 (k :: todo) s) :
    ∃ s', leaderPeer k s = (.ok ⟨⟩, s') ∧ Crowning s0 todo s' := by
  unfold leaderPeer enableHb
  rw [bind_get, bind_modPeer, bind_get, run_modPeer]
  refine ⟨_, rfl, h.id, h.term, h.log, h.params, h.now, h.applied, h.lead, h.trace, ?_, ?_⟩
  · rw [stamps_setPeer _ k _ (by intro p; rfl), stamps_setPeer s k _ (by intro p; rfl), h.stamps]
  · intro p hp hn
    obtain ⟨q, hq, rfl⟩ := List.mem_map.1 hp
    obtain ⟨q', hq', rfl⟩ := List.mem_map.1 hq
    by_cases hk : (q'.id == k) = true
    · have hid : ({ q' with nextIdx := s.log.next, snpCtx := none, busy := false } : Peer).id = q'.id := rfl
      simp only [hk, if_true, hid]
      exact ⟨by rw [h.log], trivial⟩
    · simp only [hk, if_false, Bool.false_eq_true] at hn ⊢
      exact h.ready q' hq' (fun hm => by
        rcases List.mem_cons.1 hm with e | e
        · exact hk (by simpa using e)
        · exact hn e)

theorem crowning_all {s0 : Srv} : ∀ (todo : List Int) (s : Srv), Crowning s0 todo s →
    ∃ s', forEach leaderPeer todo s = (.ok ⟨⟩, s') ∧ Crowning s0 [] s'
  | [], s, h => ⟨s, rfl, h⟩
  | k :: todo, s, h => by
    obtain ⟨s1, h1, h2⟩ := crowning_step h
    obtain ⟨s2, h3, h4⟩ := crowning_all todo s1 h2
    refine ⟨s2, ?_, h4⟩
    show (leaderPeer k >>= fun _ => forEach leaderPeer todo) s = _
    rw [run_bind_ok h1, h3]

/-- The initial configuration is put in the log, if it is not there yet. -/
theorem initialConf_run (s : Srv) : ∃ es c b fx, initialConf s = (.ok ⟨⟩, { s with
    log := ⟨s.log.start, s.log.ents ++ es⟩, config := c, configChanging := b, trace := s.trace ++ fx }) ∧ sends fx = [] ∧ es.length ≤ 1 := by
  unfold initialConf
  rw [bind_get]
  by_cases h : s.config.logIdx = 0
  · rw [if_pos h]
    exact ⟨[_], _, _, [_], rfl, rfl, Nat.le_refl _⟩
  · rw [if_neg h]
    refine ⟨[], s.config, s.configChanging, [], ?_, rfl, Nat.zero_le _⟩
    rw [List.append_nil, List.append_nil]
    rfl

theorem sendsTo_nil {k : Int} {es : List Eff} (h : sends es = []) : sendsTo k es = [] := by unfold sendsTo; rw [h]; rfl

/-- A request to every peer. -/
theorem asked_all {L : Srv} {n : Nat} (hL : Serves L) (h0 : 0 < n) : ∀ (ks : List Int), (∀ k ∈ ks, k ∈ L.peers.map Peer.id) →
    ∀ {s : Srv}, (∀ k ∈ L.peers.map Peer.id, View k n L s) → ∃ s', forEach requestAppendTo ks s = (.ok ⟨⟩, s') ∧
      (∀ k ∈ L.peers.map Peer.id, View k n L s') ∧ ∀ k ∈ ks, ∃ p, s'.findPeer k = some p ∧ p.busy = true
  | [], _, s, h => ⟨s, rfl, h, fun _ h => (by cases h)⟩
  | k :: ks, hk, s, h => by
    have h1 : ∃ s1, requestAppendTo k s = (.ok ⟨⟩, s1) ∧ (∀ i ∈ L.peers.map Peer.id, View i n L s1) ∧
        ∃ p, s1.findPeer k = some p ∧ p.busy = true := by
      have hkm := hk k (List.mem_cons_self ..)
      obtain ⟨b, s1, e1, e2, e3⟩ := view_request hL h0 hkm (h k hkm)
      refine ⟨s1, ?_, fun i hi => ?_, e3 rfl⟩
      · unfold requestAppendTo
        rw [run_bind_ok e1]; rfl
      · obtain ⟨b', s1', e1', e2', _⟩ := view_request hL h0 hkm (h i hi)
        rw [e1] at e1'
        cases e1'
        exact e2'
    obtain ⟨s1, e1, e2, p, e3, e4⟩ := h1
    obtain ⟨s2, f1, f2, f3⟩ := asked_all hL h0 ks (fun x hx => hk x (List.mem_cons_of_mem _ hx)) e2
    refine ⟨s2, ?_, f2, fun i hi => ?_⟩
    · show (requestAppendTo k >>= fun _ => forEach requestAppendTo ks) s = _
      rw [run_bind_ok e1, f1]
    · rcases List.mem_cons.1 hi with rfl | hi
      · have := pres_forEach sprPo spr_requestAppendTo ks s1
        rw [f1] at this
        obtain ⟨p', g1, g2⟩ := this.find i p e3
        exact ⟨p', g1, g2.busy e4⟩
      · exact f3 i hi

/-- A leader that has just been elected: it has sent each peer a request about the entries it had before. -/
structure Throned (s s' : Srv) : Prop where
  id : s'.id = s.id
  term : s'.term = s.term
  lead : s'.role = .leader
  params : s'.params = s.params
  now : s'.now = s.now
  applied : s'.smCommit = s.smCommit
  start : s'.log.start = 1
  log : s.log.ents <+: s'.log.ents
  size : s'.log.ents.length ≤ s.log.ents.length + 1
  stamps : s'.peers.map Peer.stamp = s.peers.map Peer.stamp
  next : ∀ p ∈ s'.peers, p.nextIdx ≤ s'.log.next
  asked : ∀ k ∈ s.peers.map Peer.id, ∃ p q, s'.findPeer k = some p ∧ p.busy = true ∧ p.nextIdx = s.log.next ∧
    .send q ∈ s'.trace ∧ ReqFor k s' s.log.next q

theorem mem_of_sendsTo {k : Int} {es : List Eff} {q : Req} (h : q ∈ sendsTo k es) : .send q ∈ es := by
  have h1 := (List.mem_filter.1 h).1
  obtain ⟨e, h2, h3⟩ := List.mem_filterMap.1 h1
  cases e <;> first | (cases h3; exact h2) | cases h3

/-- The state of a new leader before it sends requests. -/
structure Prepared (s L : Srv) : Prop where
  id : L.id = s.id
  term : L.term = s.term
  lead : L.role = .leader
  params : L.params = s.params
  now : L.now = s.now
  applied : L.smCommit = s.smCommit
  start : L.log.start = s.log.start
  log : s.log.ents <+: L.log.ents
  size : L.log.ents.length ≤ s.log.ents.length + 1
  stamps : L.peers.map Peer.stamp = s.peers.map Peer.stamp
  ready : ∀ p ∈ L.peers, p.nextIdx = s.log.next ∧ p.busy = false
  trace : sends L.trace = sends s.trace

/-- The part of `become_leader` before the loop over the peers. -/
def Srv.accede (s : Srv) : Srv :=
  { s with armed := false, role := .leader, trace := s.trace ++ [.lead s.term], leader := s.id, srvToJoin := none }

theorem crowning_start (s : Srv) : Crowning s.accede (s.peers.map Peer.id) s.accede :=
  ⟨rfl, rfl, rfl, rfl, rfl, rfl, rfl, rfl, rfl, fun p hp hx => absurd (List.mem_map.2 ⟨p, hp, rfl⟩) hx⟩

theorem accede_run (s : Srv) : becomeLeader s = (forEach leaderPeer (s.peers.map Peer.id) >>= fun _ => initialConf >>= fun _ =>
    emit (.event .becomeLeader) >>= fun _ => requestAppendAll) s.accede := rfl

theorem prepared_run (s : Srv) : ∃ L, becomeLeader s = requestAppendAll L ∧ Prepared s L := by
  obtain ⟨s1, e1, c1⟩ := crowning_all _ _ (crowning_start s)
  obtain ⟨es, cf, b, fx, e2, e3, e6⟩ := initialConf_run s1
  have e4 : (initialConf >>= fun _ => emit (.event .becomeLeader) >>= fun _ => requestAppendAll) s1 = requestAppendAll { s1 with
    log := ⟨s1.log.start, s1.log.ents ++ es⟩, config := cf, configChanging := b,
    trace := s1.trace ++ fx ++ [.event .becomeLeader] } := by
    rw [run_bind_ok e2, bind_emit]
  have e5 := accede_run s
  rw [run_bind_ok e1, e4] at e5
  refine ⟨_, e5, c1.id, c1.term, c1.lead, c1.params, c1.now, c1.applied, ?_, ?_, ?_, c1.stamps, ?_, ?_⟩
  · show s1.log.start = _; rw [c1.log]; rfl
  · show _ <+: s1.log.ents ++ es
    rw [c1.log]; exact List.prefix_append _ _
  · show (s1.log.ents ++ es).length ≤ _
    rw [c1.log, List.length_append]
    show s.log.ents.length + es.length ≤ _
    omega
  · exact fun p hp => c1.ready p hp (by simp)
  · show sends (s1.trace ++ fx ++ [_]) = _
    rw [sends_append, sends_append, e3, c1.trace]
    show sends (s.trace ++ [_]) ++ [] ++ [] = _
    rw [sends_append]
    simp only [List.append_nil]
    exact List.append_nil _

theorem becomeLeader_run {s : Srv} (h1 : s.log.start = 1) (h2 : s.peers ≠ []) (h3 : 0 < s.params.maxAppend) (h4 : sends s.trace = []) :
    ∃ s', becomeLeader s = (.ok ⟨⟩, s') ∧ Throned s s' := by
  have hn : 0 < s.log.next := by unfold Log.next; omega
  obtain ⟨L, e0, c⟩ := prepared_run s
  rw [e0]
  have hle : s.log.next ≤ L.log.next := by
    have := c.log.length_le
    unfold Log.next; rw [c.start]; omega
  have hids : L.peers.map Peer.id = s.peers.map Peer.id := ids_of_stamps c.stamps
  have hS : Serves L := ⟨c.lead, c.start.trans h1, fun p hp => by rw [(c.ready p hp).1]; exact hle, by rw [c.params]; exact h3⟩
  have hV : ∀ k ∈ L.peers.map Peer.id, View k s.log.next L L := by
    intro k hk
    obtain ⟨p, p1, _, p3⟩ := find_of_ids hk
    exact ⟨rfl, rfl, rfl, rfl, c.lead, rfl, hS.next, p, p3, (c.ready p p1).1, .inl ⟨(c.ready p p1).2, sendsTo_nil (c.trace.trans h4)⟩⟩
  obtain ⟨s2, f1, f2, f3⟩ := asked_all hS hn _ (fun _ h => h) hV
  have hne : L.peers ≠ [] := by
    intro hc
    have := congrArg List.length hids
    rw [hc, List.length_map, List.length_map] at this
    exact h2 (List.length_eq_zero_iff.1 this.symm)
  have e4 : requestAppendAll L = (.ok ⟨⟩, s2) := by
    unfold requestAppendAll
    rw [bind_get, if_neg hne, bind_peerIds, f1]
  have hk := spr_requestAppendAll L
  rw [e4] at hk
  obtain ⟨k0, hk0⟩ := List.exists_mem_of_ne_nil _ (show L.peers.map Peer.id ≠ [] by simpa using hne)
  have v := f2 k0 hk0
  refine ⟨s2, e4, v.id.trans c.id, v.term.trans c.term, v.lead, v.params.trans c.params, hk.now.trans c.now, hk.applied.trans c.applied,
    by rw [v.log, c.start, h1], by rw [v.log]; exact c.log, by rw [v.log]; exact c.size, hk.stamps.trans c.stamps, fun p hp => by rw [v.log]; exact v.next p hp,
    fun k hkm => ?_⟩
  rw [← hids] at hkm
  obtain ⟨p, p1, p2⟩ := f3 k hkm
  have vk := f2 k hkm
  obtain ⟨p', q1, q2, q3⟩ := vk.record
  rw [p1] at q1
  cases q1
  rcases q3 with q3 | ⟨_, q, q4, q5, _⟩
  · rw [p2] at q3; cases q3.1
  · refine ⟨p, q, p1, p2, q2, mem_of_sendsTo (k := k) (by rw [q4]; exact List.mem_singleton.2 rfl), ?_⟩
    exact ⟨q5.type, q5.term.trans v.term.symm, q5.dst, q5.idx, by rw [v.log]; exact q5.prev, by rw [v.log]; exact q5.entries⟩

end Cs.Raft
