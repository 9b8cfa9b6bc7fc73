import Verif.Raft.Stand
import Verif.Raft.Steps
import Verif.Raft.PropsApi
import Verif.Raft.PropsMember

/-!
# A server without a leader keeps trying (one server)

See `Verif/Cluster/PropsStand.lean` for the cluster.
-/

namespace Cs.Raft
open Cs

/-! ## The timer runs -/

theorem based_boot (c : Setup) (d : Disk) : (boot c.id c.params c.env d).Based c.params ∧ (boot c.id c.params c.env d).Tries c.params :=
  ⟨⟨rfl, rfl⟩, .inl rfl⟩

theorem tries_hist {c : Setup} {n m : Node} (hn : ∀ s, n.up = some s → s.Based c.params ∧ s.Tries c.params) {xs : List Input}
    {fx : List Eff} (h : Hist c n xs fx m) (hx : ∀ x ∈ xs, x.isJoin = false) :
    ∀ s, m.up = some s → s.Based c.params ∧ s.Tries c.params := by
  induction h with
  | nil => exact hn
  | step h0 hs ih =>
    have ih := ih fun x hx' => hx x (List.mem_append_left _ hx')
    intro s hup
    cases hs with
    | @run d s0 s1 x hr =>
      cases hup
      have hj := hx x (List.mem_append_right _ (List.mem_singleton.2 rfl))
      have h1 := sd_run (P := c.params) hj { s0 with trace := [] } (by rw [hr]; exact lives_ok)
      rw [hr] at h1
      have h2 := ih s0 rfl
      exact ⟨(h1 h2.1).1, (h1 h2.1).2 h2.2⟩
    | @survive d s0 s1 x hr =>
      cases hup
      have hj := hx x (List.mem_append_right _ (List.mem_singleton.2 rfl))
      have h1 := sd_run (P := c.params) hj { s0 with trace := [] } (by rw [hr]; exact .inr rfl)
      rw [hr] at h1
      have h2 := ih s0 rfl
      exact ⟨(h1 h2.1).1, (h1 h2.1).2 h2.2⟩
    | crash => cases hup
    | boot => cases hup; exact based_boot c _

/-- Partial: at any time a running server is leader, or its election timer is scheduled, or (if pre-votes are enabled) it has asked
for pre-votes and the round is open. For all histories without invitations to join, from any disk. -/
theorem timer_runs_partial {c : Setup} {n m : Node} (hn : n.up = none) {xs : List Input} {fx : List Eff} (h : Hist c n xs fx m)
    (hx : ∀ x ∈ xs, x.isJoin = false) {s : Srv} (hs : m.up = some s) :
    s.role = .leader ∨ s.armed = true ∨ (c.params.prevote = true ∧ s.asking) := by
  rcases (tries_hist (fun s h => by rw [hn] at h; cases h) h hx s hs).2 with h | h | h
  · exact .inr (.inl h)
  · exact .inl h
  · exact .inr (.inr h)

/-- So without pre-votes, which is the default, the timer of a server that is no leader always runs. -/
theorem timer_runs_default {c : Setup} (hp : c.params.prevote = false) {n m : Node} (hn : n.up = none) {xs : List Input}
    {fx : List Eff} (h : Hist c n xs fx m) (hx : ∀ x ∈ xs, x.isJoin = false) {s : Srv} (hs : m.up = some s)
    (hl : s.role ≠ .leader) : s.armed = true := by
  rcases timer_runs_partial hn h hx hs with h | h | ⟨h, _⟩
  · exact absurd h hl
  · exact h
  · rw [hp] at h; cases h

/-- Both cases: the timer runs after the start, and after a round of pre-votes has begun it does not. -/
example : Node.check { node1 with params := { prevote := true } } (Node.fresh conf3) [.start] (fun n _ => match n.up with
      | some s => s.role == .follower && s.armed && s.prevote.isNone
      | none => false) = true ∧
    Node.check { node1 with params := { prevote := true } } (Node.fresh conf3) [.start, .go .electionTimeout] (fun n _ => match n.up with
      | some s => s.role == .follower && !s.armed && s.prevote == some ([1], 1)
      | none => false) = true := ⟨by decide +kernel, by decide +kernel⟩

/-- The code violates the property also for a server that has just joined, whether pre-votes are enabled or not: server 1 is invited by
server 2, its timer expires while it catches up, it stores and applies the configuration it is part of. It is a follower and a member
now, but its timer is off until it hears from the leader again. -/
theorem joined_without_timer : ∃ fx d s, Hist node1 (Node.fresh ⟨0, 0, [⟨1, 1⟩]⟩)
      [.req (joinReqOf 2 1), .electionTimeout, .req (appendReqOf 2 1 0 0 [⟨1, .conf conf3⟩] 1), .apply] fx ⟨d, some s⟩ ∧
    s.role = .follower ∧ s.armed = false ∧ s.prevote = none ∧ s.catchingUp = false ∧ s.config.has 1 = true ∧ s.smCommit = 1 := by
  obtain ⟨⟨d, up⟩, fx, h1, h2⟩ := Node.witness (c := node1) (n := Node.fresh ⟨0, 0, [⟨1, 1⟩]⟩)
    [.start, .go (.req (joinReqOf 2 1)), .go .electionTimeout, .go (.req (appendReqOf 2 1 0 0 [⟨1, .conf conf3⟩] 1)), .go .apply]
    (fun n _ => match n.up with
      | some s => decide (s.role = .follower ∧ s.armed = false ∧ s.prevote = none ∧ s.catchingUp = false ∧ s.config.has 1 = true ∧
          s.smCommit = 1)
      | none => false) (by decide +kernel)
  rcases up with _ | s
  · cases h2
  · exact ⟨fx, d, s, h1, of_decide_eq_true h2⟩

/-! ## What its expiry does -/

theorem termForLog_same {i : Nat} {s s2 : Srv} {t : Nat} (h : termForLog i s = (.ok t, s2)) : s2 = s := by
  unfold termForLog termAt at h
  rw [bind_get] at h
  by_cases h0 : i = 0
  · rw [if_pos h0] at h; cases h; rfl
  rw [if_neg h0] at h
  by_cases h1 : s.log.start ≤ i
  · rw [if_pos h1, bind_get] at h
    cases he : s.log.get? i with
    | none => rw [he] at h; cases h
    | some e => rw [he] at h; cases h; rfl
  rw [if_neg h1] at h
  cases hs : s.smSnap with
  | none => rw [hs] at h; cases h
  | some snp =>
    rw [hs] at h
    dsimp only at h
    by_cases h2 : i ≠ snp.lastIdx
    · rw [if_pos h2] at h; cases h
    · rw [if_neg h2] at h; cases h; rfl

/-- `forEach` over the peers, if all goes well: a request to each. -/
theorem askAll_sends (ty : MsgType) : ∀ (ids : List Int) (s s' : Srv), forEach (askVote ty) ids s = (.ok ⟨⟩, s') →
    s'.role = s.role ∧ (∀ e ∈ s.trace, e ∈ s'.trace) ∧ ∀ i ∈ ids, ∃ r, .send r ∈ s'.trace ∧ r.type = ty ∧ r.dst = i ∧ r.term = s.term ∧ r.src = s.id
  | [], s, s', h => by cases h; exact ⟨rfl, fun _ h => h, fun _ h => (by cases h)⟩
  | i :: ids, s, s', h => by
    unfold forEach at h
    rw [run_bind] at h
    rcases hm : askVote ty i s with ⟨a | a, s1⟩
    · rw [hm] at h; cases h
    rw [hm] at h
    unfold askVote at hm
    rw [bind_get, run_bind] at hm
    rcases ht : termForLog (s.log.next - 1) s with ⟨t | t, s2⟩
    · rw [ht] at hm; cases hm
    have hs2 : s2 = s := termForLog_same ht
    subst hs2
    rw [ht] at hm
    obtain ⟨h0, h1, h2⟩ := askAll_sends ty ids s1 s' h
    cases hm
    refine ⟨h0, fun e he => h1 e (List.mem_append_left _ he), fun k hk => ?_⟩
    rcases List.mem_cons.1 hk with rfl | hk
    · exact ⟨_, h1 _ (List.mem_append_right _ (List.mem_singleton.2 rfl)), rfl, rfl, rfl, rfl⟩
    · exact h2 k hk

/-- The server stands for election: it asks every other member for its vote in a new term. -/
def Stands (s s' : Srv) : Prop :=
  ∀ p ∈ s.peers, ∃ r, .send r ∈ s'.trace ∧ r.type = .voteReq ∧ r.dst = p.id ∧ r.term = s.term + 1 ∧ r.src = s.id

theorem candidate_stands {s s' : Srv} (h : s.peers ≠ []) (hr : becomeCandidate s = (.ok ⟨⟩, s')) : Stands s s' := by
  have hl : 1 ≤ s.peers.length := by
    rcases hp : s.peers with _ | ⟨a, l⟩
    · exact absurd hp h
    · exact Nat.succ_le_succ (Nat.zero_le _)
  unfold becomeCandidate at hr
  obtain ⟨s1, e1, p1, p2, p3, p4⟩ : ∃ s1, startTerm s = (.ok ⟨⟩, s1) ∧ s1.peers = s.peers ∧ s1.votesGranted = 0 ∧ s1.term = s.term + 1 ∧ s1.id = s.id :=
    ⟨_, rfl, rfl, rfl, rfl, rfl⟩
  obtain ⟨s2, e2, q1, q2, q3, q4⟩ : ∃ s2, voteSelf s1 = (.ok ⟨⟩, s2) ∧ s2.peers = s1.peers ∧ s2.votesGranted = s1.votesGranted + 1 ∧
    s2.term = s1.term ∧ s2.id = s1.id := ⟨_, rfl, rfl, rfl, rfl, rfl⟩
  rw [run_bind_ok e1, run_bind] at hr
  unfold requestVote at hr
  rw [run_bind_ok e2] at hr
  unfold askForVotes at hr
  rw [bind_get, if_neg (by rw [q1, q2, p1, p2]; omega)] at hr
  rw [run_bind_ok (show peerIds s2 = (Except.ok (s2.peers.map Peer.id), s2) from rfl)] at hr
  split at hr
  · rename_i s3 hm
    obtain ⟨h0, h1, h2⟩ := askAll_sends _ _ _ _ hm
    have e : ∀ x ∈ s3.trace, x ∈ s'.trace := by
      unfold rearm at hr
      rw [bind_get] at hr
      by_cases h : s3.role ≠ .leader
      · rw [if_pos h, run_restart] at hr; cases hr; exact fun _ h => h
      · rw [if_neg h] at hr; cases hr; exact fun _ h => h
    intro p hp
    obtain ⟨r, r1, r2, r3, r4, r5⟩ := h2 p.id (List.mem_map.2 ⟨p, (by rw [q1, p1]; exact hp), rfl⟩)
    exact ⟨r, e _ r1, r2, r3, r4.trans (q3.trans p3), r5.trans (q4.trans p4)⟩
  · cases hr

/-- When the timer of a server expires that is no leader, and has not been asked to leave, it stands for election, unless it does so
as a follower with pre-votes enabled. -/
theorem timeout_stands {s s' : Srv} (h1 : s.role ≠ .leader) (h2 : s.stepsToDown ≤ 0) (h3 : s.catchingUp = false) (h4 : s.peers ≠ [])
    (h5 : ¬ (s.params.prevote = true ∧ s.role = .follower)) (hr : Input.electionTimeout.run s = (.ok ⟨⟩, s')) : Stands s s' := by
  have hr : handleElectionTimeout s = (.ok ⟨⟩, s') := hr
  unfold handleElectionTimeout at hr
  rw [bind_modify, bind_get, if_neg (show ¬ 0 < s.stepsToDown by omega),
    if_neg (show ¬ s.catchingUp = true by rw [h3]; exact Bool.false_ne_true), if_neg (show ¬ s.role = .leader from h1),
    if_neg (show ¬ (s.params.prevote = true ∧ s.role = .follower) from h5)] at hr
  exact candidate_stands (s := { s with armed := false }) h4 hr

/-- A follower without pre-votes, and a candidate. -/
example : (match Input.electionTimeout.run (boot 1 {} Env.plain (Node.fresh conf3).disk) with
    | (.ok _, s) => s.role == .candidate && s.armed && s.trace.any (fun e => match e with
        | .send r => r.type == .voteReq && r.dst == 3 && r.term == 1
        | _ => false) && (match Input.electionTimeout.run s with
      | (.ok _, s) => s.trace.any (fun e => match e with
        | .send r => r.type == .voteReq && r.dst == 2 && r.term == 2
        | _ => false)
      | _ => false)
    | _ => false) = true := by decide +kernel

/-! ## Rounds of pre-votes -/

/-- The refusal of the last member ends the round: the timer runs again, and the next expiry starts another round. -/
theorem last_refusal_restarts {s : Srv} {v : List Int} {n : Nat} {r : Resp} (hc : s.catchingUp = false) (hv : s.prevote = some (v, n))
    (h1 : r.src ∉ v) (h2 : r.accepted = false) (h3 : n ≤ (s.peers.length + 1) / 2) (h4 : s.peers.length ≤ v.length) :
    handlePrevoteResp r s = (.ok ⟨⟩, { s with prevote := some ([], 0), armed := true }) := by
  unfold handlePrevoteResp
  rw [bind_get, hv]
  dsimp only
  have h2' : ¬ r.accepted = true := by rw [h2]; exact Bool.false_ne_true
  rw [if_neg h1, bind_modify, if_neg (by rw [if_neg h2']; omega), if_pos (by omega), bind_modify, run_restart]
  unfold Srv.rearmed
  show _ = (Except.ok PUnit.unit, _)
  rw [show (!s.catchingUp) = true by rw [hc]; rfl, Bool.or_true]

/-- Server 1 of three: server 2 has refused, now server 3 does. -/
example : (match handlePrevoteResp { type := .prevoteResp, term := 0, src := 3, dst := 1 }
      { boot 1 { prevote := true } Env.plain (Node.fresh conf3).disk with prevote := some ([2, 1], 1), armed := false } with
    | (.ok _, s) => s.armed && s.prevote == some ([], 0)
    | _ => false) = true := by decide +kernel

/-- A round is open and member `q` has not answered. -/
structure Waits (q : Int) (s : Srv) : Prop where
  role : s.role = .follower
  armed : s.armed = false
  joined : s.catchingUp = false
  stays : s.stepsToDown ≤ 0
  param : s.params.prevote = true
  round : ∃ v n, s.prevote = some (v, n) ∧ v ≠ [] ∧ v.Nodup ∧ (∀ i ∈ v, i ∈ s.id :: s.peers.map Peer.id) ∧ q ∉ v ∧
    n ≤ (s.peers.length + 1) / 2
  other : q ∈ s.id :: s.peers.map Peer.id

/-- What may happen meanwhile: the other members refuse (any number of times), requests for pre-votes fail, other servers ask for
pre-votes, the timer expires all the same, time passes. -/
inductive Without (q : Int) (s : Srv) : Input → Prop
  | refused {p : PeerRef} {ty : MsgType} {r : Resp} : r.type = .prevoteResp → r.accepted = false → r.src ≠ q →
      r.src ∈ s.id :: s.peers.map Peer.id → Without q s (.extResp p ty r)
  | failed {p : PeerRef} {r : Req} : r.type = .prevoteReq → Without q s (.extErr p r)
  | asked {r : Req} : r.type = .prevoteReq → Without q s (.req r)
  | timeout : Without q s .electionTimeout
  | tick {t : Nat} : Without q s (.tick t)

theorem ids_modPeer (s : Srv) (r : PeerRef) (f : Peer → Peer) (hf : ∀ p, (f p).id = p.id) :
    (s.setPeer r f).peers.map Peer.id = s.peers.map Peer.id := by
  cases r with
  | member id =>
    show (s.peers.map fun p => if p.id == id then f p else p).map Peer.id = _
    rw [List.map_map]
    apply List.map_congr_left
    intro p _
    show (if p.id == id then f p else p).id = p.id
    split
    · exact hf p
    · rfl
  | joining => rfl

theorem rpcResult_run (r : PeerRef) (ty : MsgType) (ok : Bool) (s : Srv) : ∃ ps j, rpcResult r ty ok s =
    (.ok ⟨⟩, { s with peers := ps, srvToJoin := j }) ∧ ps.map Peer.id = s.peers.map Peer.id := by
  have e : rpcResult r ty ok s = (.ok ⟨⟩, (s.setPeer r fun p => if ty = .appendReq ∨ ty = .snpReq then { p with busy := false } else p).setPeer r
    (if ok then resumeHb s.params else slowDownHb s.params)) := rfl
  rw [e]
  have h1 := ids_modPeer s r (fun p => if ty = .appendReq ∨ ty = .snpReq then { p with busy := false } else p) (by intro p; split <;> rfl)
  have h2 := ids_modPeer (s.setPeer r fun p => if ty = .appendReq ∨ ty = .snpReq then { p with busy := false } else p) r
    (if ok then resumeHb s.params else slowDownHb s.params) (by intro p; cases ok <;> rfl)
  cases r with
  | member id => exact ⟨_, s.srvToJoin, rfl, h2.trans h1⟩
  | joining => exact ⟨s.peers, _, rfl, rfl⟩

/-- Nothing but the time, the peers' heartbeat speed and the round changes. -/
theorem without_run {q : Int} {s : Srv} (h : Waits q s) {x : Input} (hx : Without q s x) : ∃ s', (x.run s) = (.ok ⟨⟩, s') ∧ Waits q s' ∧
    s'.id = s.id ∧ s'.peers.map Peer.id = s.peers.map Peer.id ∧ ∃ es, s'.trace = s.trace ++ es ∧ ∀ r, .send r ∉ es := by
  have hlen : ∀ {ps : List Peer}, ps.map Peer.id = s.peers.map Peer.id → ps.length = s.peers.length := fun h => by
    have := congrArg List.length h
    rwa [List.length_map, List.length_map] at this
  obtain ⟨v, n, hv, hne, hnd, hsub, hq, hn⟩ := h.round
  cases hx with
  | @refused p ty r h1 h2 h3 h4 =>
    obtain ⟨ps, j, e, hps⟩ := rpcResult_run p ty true s
    show ∃ s', (rpcResult p ty true >>= fun _ => handleExtResp r) s = _ ∧ _
    rw [run_bind_ok e]
    unfold handleExtResp
    rw [bind_get, h1]
    dsimp only
    unfold handlePrevoteResp
    rw [bind_get]
    dsimp only
    rw [hv]
    dsimp only
    by_cases hm : r.src ∈ v
    · rw [if_pos hm]
      exact ⟨_, rfl, ⟨h.role, h.armed, h.joined, h.stays, h.param, ⟨v, n, rfl, hne, hnd, (by rw [hps]; exact hsub), hq, (by rw [hlen hps]; exact hn)⟩,
        (by rw [hps]; exact h.other)⟩, rfl, hps, [], (List.append_nil _).symm, fun _ h => (by cases h)⟩
    · have h2' : ¬ r.accepted = true := by rw [h2]; exact Bool.false_ne_true
      have hd : (q :: r.src :: v).Nodup :=
        List.nodup_cons.2 ⟨fun hm' => by
          rcases List.mem_cons.1 hm' with h | h
          · exact h3 h.symm
          · exact hq h, List.nodup_cons.2 ⟨hm, hnd⟩⟩
      have hle : (q :: r.src :: v).length ≤ (s.id :: s.peers.map Peer.id).length := subset_length hd fun i hi => by
        rcases List.mem_cons.1 hi with rfl | hi
        · exact h.other
        · rcases List.mem_cons.1 hi with rfl | hi
          · exact h4
          · exact hsub i hi
      rw [List.length_cons, List.length_cons, List.length_cons, List.length_map] at hle
      rw [if_neg hm, bind_modify, if_neg (by rw [if_neg h2', hlen hps]; omega), if_neg (by rw [hlen hps]; omega)]
      rw [if_neg h2']
      exact ⟨_, rfl, ⟨h.role, h.armed, h.joined, h.stays, h.param, ⟨r.src :: v, n, rfl, List.cons_ne_nil _ _, List.nodup_cons.2 ⟨hm, hnd⟩,
        (fun i hi => by
          rw [hps]
          rcases List.mem_cons.1 hi with rfl | hi
          · exact h4
          · exact hsub i hi), (fun hm' => by
          rcases List.mem_cons.1 hm' with h | h
          · exact h3 h.symm
          · exact hq h), (by rw [hlen hps]; exact hn)⟩, (by rw [hps]; exact h.other)⟩, rfl, hps, [], (List.append_nil _).symm, fun _ h => (by cases h)⟩
  | @failed p r h1 =>
    obtain ⟨ps, j, e, hps⟩ := rpcResult_run p r.type false s
    show ∃ s', (rpcResult p r.type false >>= fun _ => handleExtErr r) s = _ ∧ _
    rw [run_bind_ok e]
    unfold handleExtErr
    rw [bind_get, h1]
    exact ⟨_, rfl, ⟨h.role, h.armed, h.joined, h.stays, h.param, ⟨v, n, hv, hne, hnd, (by rw [hps]; exact hsub), hq, (by rw [hlen hps]; exact hn)⟩,
      (by rw [hps]; exact h.other)⟩, rfl, hps, [], (List.append_nil _).symm, fun _ h => (by cases h)⟩
  | @asked r h1 =>
    show ∃ s', (processReq r >>= fun resp => emit (.reply resp)) s = _ ∧ _
    have e1 : s.heard r = s := by
      unfold Srv.heard
      rw [h1]
      rfl
    have e2 : ∃ a, processReq r s = (.ok a, s) := by
      rw [run_processReq, e1]
      unfold dispatch handleExtended
      rw [h1]
      show ∃ a, handlePrevoteReq r s = _
      unfold handlePrevoteReq
      rw [bind_get]
      split
      · exact ⟨_, rfl⟩
      · exact ⟨_, rfl⟩
    obtain ⟨a, e2⟩ := e2
    rw [run_bind_ok e2]
    exact ⟨_, rfl, ⟨h.role, h.armed, h.joined, h.stays, h.param, h.round, h.other⟩, rfl, rfl, [.reply a], rfl, fun _ h => by
      rcases List.mem_singleton.1 h with h; cases h⟩
  | timeout =>
    show ∃ s', handleElectionTimeout s = _ ∧ _
    unfold handleElectionTimeout
    rw [bind_modify, bind_get, if_neg (show ¬ 0 < s.stepsToDown by have := h.stays; omega),
      if_neg (show ¬ s.catchingUp = true by rw [h.joined]; exact Bool.false_ne_true),
      if_neg (show ¬ s.role = .leader by rw [h.role]; exact fun h => (by cases h)), if_pos (show s.params.prevote = true ∧ s.role = .follower from ⟨h.param, h.role⟩)]
    dsimp only
    rw [hv]
    dsimp only
    rw [if_pos (by
      rcases v with _ | ⟨a, v⟩
      · exact absurd rfl hne
      · rfl)]
    exact ⟨_, rfl, ⟨h.role, rfl, h.joined, h.stays, h.param, ⟨v, n, rfl, hne, hnd, hsub, hq, hn⟩, h.other⟩, rfl, rfl, [], (List.append_nil _).symm, fun _ h => (by cases h)⟩
  | @tick t =>
    exact ⟨_, rfl, ⟨h.role, h.armed, h.joined, h.stays, h.param, h.round, h.other⟩, rfl, rfl, [], (List.append_nil _).symm, fun _ h => (by cases h)⟩
where
  subset_length {a b : List Int} (h : a.Nodup) (hs : ∀ i ∈ a, i ∈ b) : a.length ≤ b.length := by
    induction a generalizing b with
    | nil => exact Nat.zero_le _
    | cons i a ih =>
      have h1 := hs i List.mem_cons_self
      have h2 := ih (b := b.erase i) (List.nodup_cons.1 h).2 fun k hk =>
        (List.mem_erase_of_ne fun e => by subst e; exact (List.nodup_cons.1 h).1 hk).2 (hs k (List.mem_cons_of_mem _ hk))
      rw [List.length_erase_of_mem h1] at h2
      have : 0 < b.length := List.length_pos_of_mem h1
      rw [List.length_cons]
      omega

/-- The code violates the property: a server that has asked for pre-votes and gets no answer from one member does not try again,
however often the other members refuse, the requests fail, and the timer expires. It sends nothing, and its timer is off. -/
theorem asks_once {q : Int} {s : Srv} (h : Waits q s) {xs : List Input} (hx : ∀ x ∈ xs, Without q s x) :
    (s.afterInputs xs).armed = false ∧ (s.afterInputs xs).role = .follower ∧
    ∀ x, Without q s x → ∀ r, .send r ∉ (x.run { s.afterInputs xs with trace := [] }).2.trace := by
  have key : ∀ (xs : List Input) (s1 : Srv), Waits q s1 → s1.id = s.id → s1.peers.map Peer.id = s.peers.map Peer.id → (∀ x ∈ xs, Without q s x) →
      Waits q (s1.afterInputs xs) ∧ (s1.afterInputs xs).id = s.id ∧ (s1.afterInputs xs).peers.map Peer.id = s.peers.map Peer.id := by
    intro xs
    induction xs with
    | nil => exact fun s1 h1 h2 h3 _ => ⟨h1, h2, h3⟩
    | cons x xs ih =>
      intro s1 h1 h2 h3 hx
      have hw : Waits q { s1 with trace := [] } := ⟨h1.role, h1.armed, h1.joined, h1.stays, h1.param, h1.round, h1.other⟩
      obtain ⟨s', e, h4, h5, h6, _⟩ := without_run hw (conv h2 h3 (hx x List.mem_cons_self))
      show Waits q (Srv.afterInputs (x.run { s1 with trace := [] }).2 xs) ∧ _
      have e' : Srv.afterInputs s1 (x :: xs) = Srv.afterInputs (x.run { s1 with trace := [] }).2 xs := rfl
      rw [e', e]
      exact ih s' h4 (h5.trans h2) (h6.trans h3) fun y hy => hx y (List.mem_cons_of_mem _ hy)
  obtain ⟨h1, h2, h3⟩ := key xs s h rfl rfl hx
  refine ⟨h1.armed, h1.role, fun x hx r hr => ?_⟩
  have hw : Waits q { s.afterInputs xs with trace := [] } := ⟨h1.role, h1.armed, h1.joined, h1.stays, h1.param, h1.round, h1.other⟩
  obtain ⟨s', e, _, _, _, es, h7, h8⟩ := without_run hw (conv h2 h3 hx)
  rw [e] at hr
  rw [h7] at hr
  exact h8 r (by simpa using hr)
where
  conv {q : Int} {s s1 : Srv} {x : Input} (h2 : s1.id = s.id) (h3 : s1.peers.map Peer.id = s.peers.map Peer.id) (hx : Without q s x) :
      Without q { s1 with trace := [] } x := by
    cases hx with
    | refused a b c d => exact .refused a b c (by show _ ∈ s1.id :: s1.peers.map Peer.id; rw [h2, h3]; exact d)
    | failed a => exact .failed a
    | asked a => exact .asked a
    | timeout => exact .timeout
    | tick => exact .tick

/-- Server 1 of three has asked; server 2 will not answer. -/
example : Waits 2 (Input.electionTimeout.run (boot 1 { prevote := true } Env.plain (Node.fresh conf3).disk)).2 :=
  ⟨by decide +kernel, by decide +kernel, by decide +kernel, by decide +kernel, by decide +kernel,
    ⟨[1], 1, by decide +kernel, by decide, by decide, by decide +kernel, by decide, by decide +kernel⟩, by decide +kernel⟩

end Cs.Raft
