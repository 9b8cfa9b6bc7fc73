import Verif.Raft.Reconf
import Verif.Raft.PropsLeader

/-!
# Membership (C38, C39)
-/

namespace Cs.Raft
open Cs

/-! ## C38 -/

/-- Is this request to add a server one that has to be refused? -/
def addRefused (s : Srv) (r : Req) : Prop :=
  s.role ≠ .leader ∨ s.configChanging = true ∨ ¬∃ t c, r.entries = [⟨t, .srv c⟩] ∧ c.id ≠ s.id ∧ c.id ∉ s.peers.map Peer.id

/-- Is this request to remove a server one that has to be refused? -/
def rmRefused (s : Srv) (r : Req) : Prop :=
  s.role ≠ .leader ∨ s.configChanging = true ∨ ¬∃ t i, r.entries = [⟨t, .rmId i⟩] ∧ i ≠ s.id ∧ i ∈ s.peers.map Peer.id

theorem heard_other {s : Srv} {r : Req} (h : ¬(r.type = .appendReq ∨ r.type = .voteReq ∨ r.type = .snpReq)) :
    s.heard r = s := by unfold Srv.heard; rw [if_neg h]

theorem isSome_find_iff {s : Srv} {i : Int} : (s.findPeer i).isSome = true ↔ i ∈ s.peers.map Peer.id := mem_ids_find
theorem isNone_find_iff {s : Srv} {i : Int} : (s.findPeer i).isNone = true ↔ i ∉ s.peers.map Peer.id := by
  rw [← isSome_find_iff]
  cases s.findPeer i <;> simp

/-- C38, requests to add a server: while a change is under way, on a server that is not the leader, and for a server that is
a member, the request is refused and nothing changes; otherwise it is accepted and the server is invited.
Missing: `configChanging` is not always set while a change is uncommitted (`two_changes_at_once`,
`third_change_accepted`). -/
theorem add_request_partial (s : Srv) (r : Req) (hr : r.type = .addReq) :
    (addRefused s r → ∃ q, processReq r s = (.ok q, s) ∧ q.accepted = false) ∧
    (¬addRefused s r → ∃ q s' j, processReq r s = (.ok q, s') ∧ q.accepted = true ∧ s'.log = s.log ∧
      s'.trace = s.trace ++ [.send j] ∧ j.type = .joinReq) := by
  have hd : processReq r s = handleAddSrv r s := by
    rw [run_processReq, heard_other (by rw [hr]; simp)]
    unfold dispatch handleExtended
    rw [hr]
  rw [hd]
  unfold handleAddSrv addRefused
  rw [bind_get]
  by_cases he : ∃ t c, r.entries = [⟨t, .srv c⟩]
  · obtain ⟨t, c, he⟩ := he
    simp only [he]
    by_cases hc : s.role ≠ .leader ∨ (s.findPeer c.id).isSome = true ∨ s.id = c.id ∨ s.configChanging = true
    · rw [if_pos hc]
      refine ⟨fun _ => ⟨_, rfl, rfl⟩, fun h => absurd ?_ h⟩
      rcases hc with h | h | h | h
      · exact .inl h
      · refine .inr (.inr ?_)
        rintro ⟨t', c', h1, h2, h3⟩
        cases h1
        exact h3 (isSome_find_iff.1 h)
      · refine .inr (.inr ?_)
        rintro ⟨t', c', h1, h2, h3⟩
        cases h1
        exact h2 h.symm
      · exact .inr (.inl h)
    · rw [if_neg hc]
      refine ⟨fun h => absurd ?_ hc, fun _ => ⟨_, _, _, rfl, rfl, rfl, rfl, rfl⟩⟩
      rcases h with h | h | h
      · exact .inl h
      · exact .inr (.inr (.inr h))
      · by_cases h1 : c.id = s.id
        · exact .inr (.inr (.inl h1.symm))
        · by_cases h2 : c.id ∈ s.peers.map Peer.id
          · exact .inr (.inl (isSome_find_iff.2 h2))
          · exact absurd ⟨t, c, rfl, h1, h2⟩ h
  · refine ⟨fun _ => ?_, fun h => absurd (.inr (.inr ?_)) h⟩
    · rcases hes : r.entries with _ | ⟨⟨t, v⟩, _ | ⟨b, l⟩⟩
      · exact ⟨_, rfl, rfl⟩
      · cases v
        all_goals first | exact ⟨_, rfl, rfl⟩ | exact absurd ⟨t, _, hes⟩ he
      · cases v <;> exact ⟨_, rfl, rfl⟩
    · rintro ⟨t, c, h1, _⟩
      exact he ⟨t, c, h1⟩

/-- C38, requests to remove a server: the same; an accepted request asks the server to leave. -/
theorem remove_request_partial (s : Srv) (r : Req) (hr : r.type = .rmReq) :
    (rmRefused s r → ∃ q, processReq r s = (.ok q, s) ∧ q.accepted = false) ∧
    (¬rmRefused s r → ∃ q s' j, processReq r s = (.ok q, s') ∧ q.accepted = true ∧ s'.log = s.log ∧
      s'.trace = s.trace ++ [.send j] ∧ j.type = .leaveReq) := by
  have hd : processReq r s = handleRmSrv r s := by
    rw [run_processReq, heard_other (by rw [hr]; simp)]
    unfold dispatch handleExtended
    rw [hr]
  rw [hd]
  unfold handleRmSrv rmRefused
  rw [bind_get]
  by_cases he : ∃ t i, r.entries = [⟨t, .rmId i⟩]
  · obtain ⟨t, i, he⟩ := he
    simp only [he]
    by_cases hc : s.role ≠ .leader ∨ s.configChanging = true ∨ i = s.id ∨ (s.findPeer i).isNone = true
    · rw [if_pos hc]
      refine ⟨fun _ => ⟨_, rfl, rfl⟩, fun h => absurd ?_ h⟩
      rcases hc with h | h | h | h
      · exact .inl h
      · exact .inr (.inl h)
      · refine .inr (.inr ?_)
        rintro ⟨t', c', h1, h2, h3⟩
        cases h1
        exact h2 h
      · refine .inr (.inr ?_)
        rintro ⟨t', c', h1, h2, h3⟩
        cases h1
        exact isNone_find_iff.1 h h3
    · rw [if_neg hc]
      refine ⟨fun h => absurd ?_ hc, fun _ => ⟨_, _, _, rfl, rfl, rfl, rfl, rfl⟩⟩
      rcases h with h | h | h
      · exact .inl h
      · exact .inr (.inl h)
      · by_cases h1 : i = s.id
        · exact .inr (.inr (.inl h1))
        · by_cases h2 : i ∈ s.peers.map Peer.id
          · exact absurd ⟨t, i, rfl, h1, h2⟩ h
          · exact .inr (.inr (.inr (isNone_find_iff.2 h2)))
  · refine ⟨fun _ => ?_, fun h => absurd (.inr (.inr ?_)) h⟩
    · rcases hes : r.entries with _ | ⟨⟨t, v⟩, _ | ⟨b, l⟩⟩
      · exact ⟨_, rfl, rfl⟩
      · cases v
        all_goals first | exact ⟨_, rfl, rfl⟩ | exact absurd ⟨t, _, hes⟩ he
      · cases v <;> exact ⟨_, rfl, rfl⟩
    · rintro ⟨t, c, h1, _⟩
      exact he ⟨t, c, h1⟩

/-- Membership requests and answers. -/
def addReqOf (i : Int) : Req :=
  { type := .addReq, term := 0, src := 9, dst := 1, lastTerm := 0, lastIdx := 0, commitIdx := 0,
    entries := [⟨0, .srv ⟨i, 7⟩⟩] }
def rmReqOf (i : Int) : Req :=
  { type := .rmReq, term := 0, src := 9, dst := 1, lastTerm := 0, lastIdx := 0, commitIdx := 0, entries := [⟨0, .rmId i⟩] }
/-- Server 4 accepts the invitation, server 3 agrees to leave. -/
def joinedOf (i : Int) (next : Nat) : Input :=
  .extResp .joining .joinReq { type := .joinResp, term := 1, src := i, dst := 1, nextIdx := next, accepted := true }
def leftOf (i : Int) : Input :=
  .extResp (.member i) .leaveReq { type := .leaveResp, term := 1, src := i, dst := 1, nextIdx := 2, accepted := true }

/-- Server 1 becomes leader and its first configuration entry is committed and applied. -/
def electScript : List Move :=
  [.start, .go .electionTimeout, .go (voteRespOf 2 1 true), .go (appendRespOf 2 1 2), .go .apply]

/-- Both outcomes of C38 occur. -/
example : Node.check node1 (Node.fresh conf3) electScript (fun n _ => match n.up with
    | some s => (match (processReq (addReqOf 4) s).1 with | .ok q => q.accepted | _ => false) &&
        (match (processReq (addReqOf 2) s).1 with | .ok q => !q.accepted | _ => false) &&
        (match (processReq (rmReqOf 2) s).1 with | .ok q => q.accepted | _ => false) &&
        (match (processReq (rmReqOf 4) s).1 with | .ok q => !q.accepted | _ => false)
    | none => false) = true := by decide +kernel

/-- C38 fails: requests to add server 4 and to remove server 3 are both accepted, and then there are two configuration
entries that are not committed. The second one knows nothing of the first: it is {1, 2}, without server 4. -/
theorem two_changes_at_once :
    ∃ n fx, Hist node1 (Node.fresh conf3) (electScript.flatMap Move.input ++
        [.req (addReqOf 4), .req (rmReqOf 3), joinedOf 4 1, leftOf 3]) fx n ∧
      (n.up.map fun s => (s.role, s.quickCommit, (s.log.get? 2).map Entry.val, (s.log.get? 3).map Entry.val)) =
        some (.leader, 1, some (.conf ⟨2, 1, [⟨1, 1⟩, ⟨2, 2⟩, ⟨3, 3⟩, ⟨4, 7⟩]⟩), some (.conf ⟨3, 1, [⟨1, 1⟩, ⟨2, 2⟩]⟩)) := by
  obtain ⟨n, fx, h, hp⟩ := Node.witness (c := node1) (n := Node.fresh conf3)
    (electScript ++ [.go (.req (addReqOf 4)), .go (.req (rmReqOf 3)), .go (joinedOf 4 1), .go (leftOf 3)])
    (fun n _ => decide ((n.up.map fun s => (s.role, s.quickCommit, (s.log.get? 2).map Entry.val,
        (s.log.get? 3).map Entry.val)) =
      some (.leader, 1, some (.conf ⟨2, 1, [⟨1, 1⟩, ⟨2, 2⟩, ⟨3, 3⟩, ⟨4, 7⟩]⟩), some (.conf ⟨3, 1, [⟨1, 1⟩, ⟨2, 2⟩]⟩))))
    (by decide +kernel)
  exact ⟨n, fx, h, of_decide_eq_true hp⟩

/-- C38 fails further: once the first of the two entries is applied, a request is accepted again although the second is not
committed. -/
theorem third_change_accepted :
    ∃ n fx, Hist node1 (Node.fresh conf3) (electScript.flatMap Move.input ++
        [.req (addReqOf 4), .req (rmReqOf 3), joinedOf 4 1, leftOf 3, appendRespOf 2 1 3, appendRespOf 3 1 3, .apply]) fx n ∧
      ∃ s, n.up = some s ∧ s.quickCommit = 2 ∧ (s.log.get? 3).map Entry.isConf = some true ∧
        ∃ q s', processReq (addReqOf 5) s = (.ok q, s') ∧ q.accepted = true := by
  obtain ⟨n, fx, h, hp⟩ := Node.witness (c := node1) (n := Node.fresh conf3)
    (electScript ++ [.go (.req (addReqOf 4)), .go (.req (rmReqOf 3)), .go (joinedOf 4 1), .go (leftOf 3),
      .go (appendRespOf 2 1 3), .go (appendRespOf 3 1 3), .go .apply])
    (fun n _ => match n.up with
      | some s => decide (s.quickCommit = 2) && decide ((s.log.get? 3).map Entry.isConf = some true) &&
          (match (processReq (addReqOf 5) s).1 with | .ok q => q.accepted | _ => false)
      | none => false)
    (by decide +kernel)
  refine ⟨n, fx, h, ?_⟩
  rcases n with ⟨d, _ | s⟩
  · cases hp
  · simp only [Bool.and_eq_true, decide_eq_true_eq] at hp
    refine ⟨s, rfl, hp.1.1, hp.1.2, ?_⟩
    rcases hr : processReq (addReqOf 5) s with ⟨e | q, s'⟩
    · rw [hr] at hp; cases hp.2
    · rw [hr] at hp; exact ⟨q, s', rfl, hp.2⟩

/-! ## C39 -/

/-- Same peers and configuration. -/
def SamePeers (s s' : Srv) : Prop := s'.peers = s.peers ∧ s'.config = s.config ∧ s'.id = s.id

theorem spo : PO SamePeers :=
  ⟨fun _ => ⟨rfl, rfl, rfl⟩, fun h1 h2 => ⟨h2.1.trans h1.1, h2.2.1.trans h1.2.1, h2.2.2.trans h1.2.2⟩⟩
theorem sp_die {α : Type} (c : Int) : Pres SamePeers (die c : R α) := fun _ => ⟨rfl, rfl, rfl⟩
theorem sp_entryAt (i : Nat) : Pres SamePeers (entryAt i) := by
  unfold entryAt
  pres spo using sp_die
theorem sp_termAt (i : Nat) : Pres SamePeers (termAt i) := by
  unfold termAt
  pres spo using sp_die
theorem sp_findConf (i : Nat) : ∀ (n : Nat) (c : Config), Pres SamePeers (findConf i n c)
  | 0, _ => pres_throw spo _
  | n + 1, c => by
    have ih := sp_findConf i n
    unfold findConf
    pres spo using sp_entryAt, ih
theorem sp_confForSnap (i : Nat) : Pres SamePeers (confForSnap i) := by
  unfold confForSnap
  pres spo using sp_findConf, sp_die
theorem sp_startSnapshot (i : Nat) : Pres SamePeers (startSnapshot i) := by
  unfold startSnapshot emit
  pres spo using sp_confForSnap, sp_termAt, pres_modify
  all_goals exact ⟨rfl, rfl, rfl⟩
theorem sp_snapshotAndCompact (i : Nat) : Pres SamePeers (snapshotAndCompact i) := by
  unfold snapshotAndCompact
  pres spo using pres_modify, sp_startSnapshot
  all_goals exact ⟨rfl, rfl, rfl⟩

/-- The peers of a server are distinct and do not contain the server itself. -/
theorem peers_distinct {c : Setup} {cfg : Config} {xs : List Input} {fx : List Eff} {n : Node} {s : Srv}
    (h : Hist c (Node.fresh cfg) xs fx n) (hs : n.up = some s) :
    (s.peers.map Peer.id).Nodup ∧ s.id ∉ s.peers.map Peer.id := by
  have := Hist.inv (c := c) (n := Node.fresh cfg) (I := fun _ s => (s.peers.map Peer.id).Nodup ∧ s.id ∉ s.peers.map Peer.id)
    rfl (fun P d => ⟨(MInv.boot [] c d).nodup, (MInv.boot [] c d).self⟩) (fun P s x hi => ?_) h
  · exact this s hs
  · exact (@gq_run PQ x PQ.prims { s with trace := [] }) hi

/-- One iteration of the commit thread when the next entry is a newer configuration. -/
theorem run_apply_conf {s : Srv} {t : Nat} {c : Config} (hc : s.smCommit < s.quickCommit)
    (hn : s.smCommit < s.log.next - 1) (he : s.log.get? (s.smCommit + 1) = some ⟨t, .conf c⟩)
    (hl : s.config.logIdx < c.logIdx) : ∃ s1, s1.peers = s.peers ∧ s1.id = s.id ∧ s1.catchingUp = s.catchingUp ∧
      s1.log = s.log ∧ s1.trace = s.trace ++ [.saveConfig c] ∧
      applyOne s = ((reconfigure c >>= fun _ =>
        modify fun s => { s with catchingUp := if c.has s.id then false else s.catchingUp }) >>= fun _ =>
        snapshotAndCompact (s.smCommit + 1)) s1 := by
  unfold applyOne
  rw [bind_get, if_pos (by unfold Srv.canApply; simp [hc, hn]), bind_modify,
    run_bind_ok (entryToApply_some (s := { s with smCommit := s.smCommit + 1 }) he)]
  refine ⟨{ s with
      smCommit := s.smCommit + 1, trace := s.trace ++ [.saveConfig c], configChanging := false },
    rfl, rfl, rfl, rfl, rfl, ?_⟩
  show ((commitConf c) >>= fun _ => snapshotAndCompact (s.smCommit + 1)) _ = _
  have h1 : commitConf c { s with smCommit := s.smCommit + 1 } = (reconfigure c >>= fun _ =>
        modify fun s => { s with catchingUp := if c.has s.id then false else s.catchingUp }) { s with
      smCommit := s.smCommit + 1, trace := s.trace ++ [.saveConfig c], configChanging := false } := by
    unfold commitConf
    rw [bind_emit, bind_modify, bind_get]
    simp only [if_pos hl]
  rw [run_bind, run_bind, h1]

/-- C39, members: when the commit thread applies a configuration that the server is a member of, the server has as peers
exactly the other members, each once. Peers that stay are as they were, in particular with their progress; new peers start
with nothing confirmed. -/
theorem apply_configuration_member {c : Setup} {cfg : Config} {xs : List Input} {fx : List Eff} {d : Disk} {s : Srv} {t : Nat}
    {conf : Config} (h : Hist c (Node.fresh cfg) xs fx ⟨d, some s⟩) (hc : s.smCommit < s.quickCommit)
    (hn : s.smCommit < s.log.next - 1) (he : s.log.get? (s.smCommit + 1) = some ⟨t, .conf conf⟩)
    (hl : s.config.logIdx < conf.logIdx) (hm : ∃ x ∈ conf.servers, x.id = s.id) :
    ∀ s', s' = (Input.apply.run { s with trace := [] }).2 →
      s'.config = conf ∧ (s'.peers.map Peer.id).Nodup ∧
      (∀ i, i ∈ s'.peers.map Peer.id ↔ i ≠ s.id ∧ ∃ x ∈ conf.servers, x.id = i) ∧
      (∀ p ∈ s.peers, (∃ x ∈ conf.servers, x.id = p.id) → p ∈ s'.peers) ∧
      (∀ p ∈ s'.peers, p ∈ s.peers ∨ p.matched = 0) := by
  intro s' hs'
  obtain ⟨hnd, hself⟩ := peers_distinct h rfl
  obtain ⟨s1, e1, e2, e3, e4, e5, e6⟩ := run_apply_conf (s := { s with trace := [] }) hc hn he hl
  have e1' : s1.peers = s.peers := e1
  have e2' : s1.id = s.id := e2
  obtain ⟨s2, new, r1, r2, r3, r4, r5, r6, r7, r8, r9, r10⟩ := reconfigure_stays (s := s1) (c := conf)
    (by rw [e1', e2']; exact hself) (.inl (by rw [has_iff, e2']; exact hm))
  rw [e1'] at r7 r9 r10
  rw [e2'] at r9 r10
  have hrun : ∃ s3, s3.peers = s2.peers ∧ s3.config = s2.config ∧
      Input.apply.run { s with trace := [] } = snapshotAndCompact (s.smCommit + 1) s3 := by
    refine ⟨{ s2 with catchingUp := if conf.has s2.id then false else s2.catchingUp }, rfl, rfl, ?_⟩
    show applyOne _ = _
    rw [e6, run_bind_ok (by rw [run_bind_ok r1]; rfl)]
  obtain ⟨s3, g1, g2, g3⟩ := hrun
  obtain ⟨k1, k2, _⟩ := sp_snapshotAndCompact (s.smCommit + 1) s3
  rw [g3] at hs'
  have hp : s'.peers = (s.peers.filter fun p => conf.has p.id) ++ new := by rw [hs', k1, g1, r7]
  have hdis : ∀ i, i ∈ (s.peers.filter fun p => conf.has p.id).map Peer.id → i ∈ s.peers.map Peer.id :=
    fun i hi => (List.filter_sublist.map Peer.id).subset hi
  refine ⟨by rw [hs', k2, g2, r2], ?_, fun i => ?_, fun p hp' hx => ?_, fun p hp' => ?_⟩
  · rw [hp, List.map_append, List.nodup_append]
    refine ⟨hnd.sublist (List.filter_sublist.map _), r8, ?_⟩
    intro a ha b hb hab
    obtain ⟨q, hq, rfl⟩ := List.mem_map.1 hb
    exact (r9 q hq).2.2.2.1 (by rw [← hab]; exact hdis a ha)
  · rw [hp, List.map_append, List.mem_append]
    constructor
    · rintro (hi | hi)
      · obtain ⟨q, hq, rfl⟩ := List.mem_map.1 hi
        obtain ⟨q1, q2⟩ := List.mem_filter.1 hq
        refine ⟨fun hh => hself (hh ▸ List.mem_map_of_mem q1), has_iff.1 q2⟩
      · obtain ⟨q, hq, rfl⟩ := List.mem_map.1 hi
        exact ⟨(r9 q hq).2.2.1, q.cfg, (r9 q hq).2.2.2.2, rfl⟩
    · rintro ⟨h1, x, hx, rfl⟩
      by_cases hmem : x.id ∈ s.peers.map Peer.id
      · obtain ⟨q, hq, hqi⟩ := List.mem_map.1 hmem
        exact .inl (List.mem_map.2 ⟨q, List.mem_filter.2 ⟨hq, has_iff.2 ⟨x, hx, hqi.symm⟩⟩, hqi⟩)
      · exact .inr (r10 x hx h1 hmem)
  · rw [hp]
    exact List.mem_append_left _ (List.mem_filter.2 ⟨hp', has_iff.2 hx⟩)
  · rw [hp] at hp'
    rcases List.mem_append.1 hp' with hq | hq
    · exact .inl (List.mem_filter.1 hq).1
    · exact .inr (r9 p hq).1

/-- C39, others: a server that is not a member, and not about to join, saves the configuration and shuts down. -/
theorem apply_configuration_not_member {c : Setup} {cfg : Config} {xs : List Input} {fx : List Eff} {d : Disk} {s : Srv}
    {t : Nat} {conf : Config} (h : Hist c (Node.fresh cfg) xs fx ⟨d, some s⟩) (hc : s.smCommit < s.quickCommit)
    (hn : s.smCommit < s.log.next - 1) (he : s.log.get? (s.smCommit + 1) = some ⟨t, .conf conf⟩)
    (hl : s.config.logIdx < conf.logIdx) (hm : ∀ x ∈ conf.servers, x.id ≠ s.id) (hj : s.catchingUp = false) :
    ∃ s', Input.apply.run { s with trace := [] } = (.error (.exit 0), s') ∧
      s'.trace = [.saveConfig conf, .saveConfig conf, .exit 0] := by
  obtain ⟨hnd, hself⟩ := peers_distinct h rfl
  obtain ⟨s1, e1, e2, e3, e4, e5, e6⟩ := run_apply_conf (s := { s with trace := [] }) hc hn he hl
  have e1' : s1.peers = s.peers := e1
  have e2' : s1.id = s.id := e2
  obtain ⟨s2, r1, r2⟩ := reconfigure_leaves (s := s1) (c := conf) (by rw [e1', e2']; exact hself)
    (by
      cases hh : conf.has s1.id
      · rfl
      · obtain ⟨x, hx, hxi⟩ := has_iff.1 hh
        exact absurd (hxi.trans e2') (hm x hx))
    (e3.trans hj)
  refine ⟨s2, ?_, ?_⟩
  · show applyOne _ = _
    rw [e6, run_bind_err (by rw [run_bind_err r1])]
  · rw [r2, e5]; rfl

/-- The hypotheses of `apply_configuration_member`: server 1 leads and has committed, but not applied, the entry that adds
server 4; after applying it the peers are 2, 3 (with its progress) and 4. -/
example : Node.check node1 (Node.fresh conf3)
    (electScript ++ [.go (.req (addReqOf 4)), .go (joinedOf 4 1), .go (appendRespOf 2 1 3)])
    (fun n _ => match n.up with
      | some s => decide (s.smCommit < s.quickCommit ∧ s.smCommit < s.log.next - 1 ∧ s.config.logIdx < 2 ∧
            s.log.get? (s.smCommit + 1) = some ⟨1, .conf ⟨2, 1, [⟨1, 1⟩, ⟨2, 2⟩, ⟨3, 3⟩, ⟨4, 7⟩]⟩⟩) &&
          decide (((Input.apply.run { s with trace := [] }).2.peers.map fun p => (p.id, p.matched)) =
            [(2, 2), (3, 0), (4, 0)])
      | none => false) = true := by decide +kernel

/-- The hypotheses of `apply_configuration_not_member`: a follower learns that it has been removed. -/
example : Node.check node1 (Node.fresh conf3)
    [.start, .go (.req (appendReqOf 2 5 0 0 [⟨5, .conf ⟨1, 0, [⟨2, 2⟩, ⟨3, 3⟩]⟩⟩] 1))]
    (fun n _ => match n.up with
      | some s => decide (s.smCommit < s.quickCommit ∧ s.smCommit < s.log.next - 1 ∧ s.config.logIdx < 1 ∧
            s.log.get? (s.smCommit + 1) = some ⟨5, .conf ⟨1, 0, [⟨2, 2⟩, ⟨3, 3⟩]⟩⟩ ∧ s.catchingUp = false)
      | none => false) = true := by decide +kernel

end Cs.Raft
