import Verif.Raft.NoBeat
import Verif.Raft.PropsLeader
import Verif.Raft.PropsSnap
import Verif.Raft.Play

/-!
# C122: the heartbeat timers of the members run exactly while the server leads
-/

namespace Cs.Raft
open Cs

/-! ## Specification -/

/-- In the course of the history an expiry of the heartbeat timer of member `i` was handled, and the handler ended by an exception. -/
def BeatFailed (c : Setup) (n : Node) (xs : List Input) (i : Int) : Prop :=
  ∃ ys fx n1 s s', Hist c n ys fx n1 ∧ n1.up = some s ∧ (Input.hbTimeout i).run { s with trace := [] } = (.error .thrown, s') ∧
    ys ++ [.hbTimeout i] <+: xs

/-! ## C122 -/

theorem boot_rests (id : Int) (pr : Params) (env : Env) (d : Disk) : ∀ p ∈ (boot id pr env d).peers, p.Resting := by
  have key : ∀ (cs : List SrvCfg) (ps : List Peer), (∀ p ∈ ps, p.Resting) → ∀ p ∈ cs.foldl (bootPeer id pr) ps, p.Resting := by
    intro cs
    induction cs with
    | nil => exact fun ps h => h
    | cons c cs ih =>
      intro ps h
      refine ih _ fun p hp => ?_
      unfold bootPeer at hp
      split at hp
      · exact h p hp
      · rcases List.mem_append.1 hp with hp | hp
        · exact h p hp
        · rw [List.mem_singleton.1 hp]; exact ⟨rfl, rfl⟩
  exact key d.config.servers [] fun _ h => (by cases h)

/-- C122 for leaders: in every history, with crashes, restarts, changes of the configuration and exceptions, a server that leads has a
running heartbeat timer for each member of which it knows, unless an earlier heartbeat for this member ended by an exception.

Missing: those heartbeats, after which it is false: `heartbeat_stopped`. -/
theorem leader_beats_partial {c : Setup} {n n' : Node} {xs : List Input} {fx : List Eff} (h : Hist c n xs fx n') (hn : n.up = none)
    {s : Srv} (hs : n'.up = some s) (hl : s.role = .leader) : ∀ p ∈ s.peers, p.hbArmed = true ∨ BeatFailed c n xs p.id := by
  have key : ∀ s, n'.up = some s → s.BeatBut (BeatFailed c n xs) := by
    clear hs hl s
    induction h with
    | nil => exact fun s hs => (by rw [hn] at hs; cases hs)
    | @step n1 n2 xs fx es x h1 hs ih =>
      have up : ∀ i, BeatFailed c n xs i → BeatFailed c n (xs ++ x.toList) i :=
        fun i ⟨ys, fx, n1, s, s', a1, a2, a3, a4⟩ => ⟨ys, fx, n1, s, s', a1, a2, a3, a4.trans (List.prefix_append _ _)⟩
      have mono : ∀ s : Srv, s.BeatBut (BeatFailed c n xs) → s.BeatBut (BeatFailed c n (xs ++ x.toList)) :=
        fun s hs hl p hp => ⟨(hs hl p hp).1, (hs hl p hp).2.imp (fun h => h) (up _)⟩
      cases hs with
      | @run d s s' x hr =>
        intro s0 h0
        cases h0
        have := on_run (x := x) (K := BeatFailed c n (xs ++ (some x).toList)) { s with trace := [] }
          (fun i e _ he => by rw [hr] at he; cases he) (mono s (ih s rfl))
        rw [hr] at this
        exact this
      | @survive d s s' x hr =>
        intro s0 h0
        cases h0
        have := on_run (x := x) (K := BeatFailed c n (xs ++ (some x).toList)) { s with trace := [] }
          (fun i e hi _ => by subst hi; exact ⟨xs, fx, _, s, s', h1, rfl, hr, List.prefix_rfl⟩) (mono s (ih s rfl))
        rw [hr] at this
        exact this
      | crash _ => exact fun s hs => (by cases hs)
      | boot => exact fun s hs => (by cases hs; exact fun h => (by cases h))
  exact fun p hp => (key s hs hl p hp).2

/-- C122 for followers: in every history without invitations to join, a follower has no running heartbeat timer.

Missing: invitations, with which it is false: `invited_leader_beats`; candidates, for which it can be false with pre-votes:
`candidate_beats`; candidates without pre-votes: `silent_unless_leader_partial`. -/
theorem follower_rests_partial {c : Setup} {n n' : Node} {xs : List Input} {fx : List Eff} (h : Hist c n xs fx n') (hn : n.up = none)
    (hj : ∀ x ∈ xs, x.isJoin = false) {s : Srv} (hs : n'.up = some s) (hf : s.role = .follower) : ∀ p ∈ s.peers, p.hbArmed = false := by
  have key : ∀ s, n'.up = some s → s.Silenced := by
    clear hs hf s
    induction h with
    | nil => exact fun s hs => (by rw [hn] at hs; cases hs)
    | @step n1 n2 xs fx es x h1 hs ih =>
      have ih := ih fun x hx => hj x (List.mem_append_left _ hx)
      have hx : ∀ (y : Input) r, x = some y → y = .req r → r.type ≠ .joinReq := by
        rintro y r h1 rfl h2
        have := hj (.req r) (by rw [h1]; simp)
        have this : (r.type == .joinReq) = false := this
        rw [h2] at this
        cases this
      cases hs with
      | @run d s s' x hr =>
        intro s0 h0
        cases h0
        have := off_run (x := x) (hx x · rfl) { s with trace := [] } (ih s rfl)
        rw [hr] at this
        exact this
      | @survive d s s' x hr =>
        intro s0 h0
        cases h0
        have := off_run (x := x) (hx x · rfl) { s with trace := [] } (ih s rfl)
        rw [hr] at this
        exact this
      | crash _ => exact fun s hs => (by cases hs)
      | boot => exact fun s hs => (by cases hs; exact fun _ => boot_rests _ _ _ _)
  exact fun p hp => (key s hs hf p hp).2

/-- C122 without pre-votes: in every history without invitations to join, a server that is not leader, so a follower or a candidate, has no
running heartbeat timer.

Missing: invitations and pre-votes, with which it is false: `invited_leader_beats`, `candidate_beats`. -/
theorem silent_unless_leader_partial {c : Setup} {n n' : Node} {xs : List Input} {fx : List Eff} (h : Hist c n xs fx n')
    (hn : n.up = none) (hv : c.params.prevote = false) (hj : ∀ x ∈ xs, x.isJoin = false) {s : Srv} (hs : n'.up = some s)
    (hl : s.role ≠ .leader) : ∀ p ∈ s.peers, p.hbArmed = false := by
  have key : ∀ s, n'.up = some s → s.NoPrevote ∧ s.Rests := by
    clear hs hl s
    induction h with
    | nil => exact fun s hs => (by rw [hn] at hs; cases hs)
    | @step n1 n2 xs fx es x h1 hs ih =>
      have ih := ih fun x hx => hj x (List.mem_append_left _ hx)
      have hx : ∀ (y : Input) r, x = some y → y = .req r → r.type ≠ .joinReq := by
        rintro y r h1 rfl h2
        have := hj (.req r) (by rw [h1]; simp)
        have this : (r.type == .joinReq) = false := this
        rw [h2] at this
        cases this
      have run : ∀ (s : Srv) (y : Input), x = some y → s.NoPrevote ∧ s.Rests →
          (y.run { s with trace := [] }).2.NoPrevote ∧ (y.run { s with trace := [] }).2.Rests :=
        fun s y hy g => ⟨(nb_run (hx y · hy) { s with trace := [] } g.1).1, (nb_run (hx y · hy) { s with trace := [] } g.1).2 g.2⟩
      cases hs with
      | @run d s s' x hr =>
        intro s0 h0
        cases h0
        have := run s x rfl (ih s rfl)
        rw [hr] at this
        exact this
      | @survive d s s' x hr =>
        intro s0 h0
        cases h0
        have := run s x rfl (ih s rfl)
        rw [hr] at this
        exact this
      | crash _ => exact fun s hs => (by cases hs)
      | boot => exact fun s hs => (by cases hs; exact ⟨⟨hv, rfl⟩, fun _ => boot_rests _ _ _ _⟩)
  exact fun p hp => ((key s hs).2 hl p hp).2

/-! ## Concrete histories -/

/-- The server runs and its state is as wanted. -/
def Node.upIs (n : Node) (P : Srv → Bool) : Bool := match n.up with
  | some s => P s
  | none => false

theorem Node.upIs_some {n : Node} {P : Srv → Bool} (h : n.upIs P = true) : ∃ s, n.up = some s ∧ P s = true := by
  unfold Node.upIs at h
  split at h
  · next s hs => exact ⟨s, hs, h⟩
  · cases h

/-- Server 1 leads, and has sent a heartbeat to server 2. -/
def beatMoves : List Move := [.start, .go .electionTimeout, .go (voteRespOf 2 1 true), .go (.hbTimeout 2)]

/-- The hypotheses of `leader_beats_partial` can be met: both timers run. -/
example : ∃ xs fx n s, Hist node1 (Node.fresh conf3) xs fx n ∧ (Node.fresh conf3).up = none ∧ n.up = some s ∧ s.role = .leader ∧
    s.peers.map (fun p => (p.id, p.hbArmed)) = [(2, true), (3, true)] := by
  obtain ⟨n, fx, h, hp⟩ := Node.witness (c := node1) (n := Node.fresh conf3) beatMoves
    (fun n _ => n.upIs fun s => decide (s.role = .leader ∧ s.peers.map (fun p => (p.id, p.hbArmed)) = [(2, true), (3, true)]))
    (by decide +kernel)
  obtain ⟨s, hs, h2⟩ := Node.upIs_some hp
  exact ⟨_, fx, n, s, h, rfl, hs, of_decide_eq_true h2⟩

/-- Those of `follower_rests_partial` too: server 1 was leader, and hears of a later term. -/
example : ∃ xs fx n s, Hist node1 (Node.fresh conf3) xs fx n ∧ (Node.fresh conf3).up = none ∧ (∀ x ∈ xs, x.isJoin = false) ∧
    n.up = some s ∧ s.role = .follower ∧ .event .becomeLeader ∈ fx ∧ s.peers.map (fun p => (p.id, p.hbArmed)) = [(2, false), (3, false)] := by
  obtain ⟨n, fx, h, hp⟩ := Node.witness (c := node1) (n := Node.fresh conf3) (beatMoves ++ [.go (.req (appendReqOf 3 2 0 0 [] 0))])
    (fun n fx => n.upIs fun s => decide (s.role = .follower ∧ .event .becomeLeader ∈ fx ∧
      s.peers.map (fun p => (p.id, p.hbArmed)) = [(2, false), (3, false)]))
    (by decide +kernel)
  obtain ⟨s, hs, h2⟩ := Node.upIs_some hp
  refine ⟨_, fx, n, s, h, rfl, fun x hx => ?_, hs, of_decide_eq_true h2⟩
  simp [beatMoves, Move.input] at hx
  rcases hx with rfl | rfl | rfl | rfl <;> rfl

/-- Those of `silent_unless_leader_partial` too: server 1 was leader, hears of a later term, and becomes a candidate. -/
example : ∃ xs fx n s, Hist node1 (Node.fresh conf3) xs fx n ∧ (Node.fresh conf3).up = none ∧ node1.params.prevote = false ∧
    (∀ x ∈ xs, x.isJoin = false) ∧ n.up = some s ∧ s.role = .candidate ∧ .event .becomeLeader ∈ fx ∧
    s.peers.map (fun p => (p.id, p.hbArmed)) = [(2, false), (3, false)] := by
  obtain ⟨n, fx, h, hp⟩ := Node.witness (c := node1) (n := Node.fresh conf3)
    (beatMoves ++ [.go (.req (appendReqOf 3 2 0 0 [] 0)), .go .electionTimeout])
    (fun n fx => n.upIs fun s => decide (s.role = .candidate ∧ .event .becomeLeader ∈ fx ∧
      s.peers.map (fun p => (p.id, p.hbArmed)) = [(2, false), (3, false)]))
    (by decide +kernel)
  obtain ⟨s, hs, h2⟩ := Node.upIs_some hp
  refine ⟨_, fx, n, s, h, rfl, rfl, fun x hx => ?_, hs, of_decide_eq_true h2⟩
  simp [beatMoves, Move.input] at hx
  rcases hx with rfl | rfl | rfl | rfl | rfl <;> rfl

/-- Server 1 has removed the beginning of its log. It leads in term 6, and again in term 8. Server 3 has no entries, and says so; making a
request for it ends by an exception. Then a request of term 6 fails, and a heartbeat is due. -/
def stopMoves : List Move :=
  [.start, .go .electionTimeout, .go (voteRespOf 2 6 true), .go (.req (voteReqOf 2 7 7 30)), .go .electionTimeout, .go (voteRespOf 2 8 true),
   .go (.peerResp .appendReq { type := .appendResp, term := 8, src := 3, dst := 1, nextIdx := 1 }),
   .go (.peerErr { type := .appendReq, term := 6, src := 1, dst := 3, lastTerm := 6, lastIdx := 0, commitIdx := 0 }), .go (.hbTimeout 3)]

/-- C122 fails for a heartbeat that ends by an exception: the server leads, and the timer of server 3 has stopped. -/
theorem heartbeat_stopped : ∃ xs fx n s,
    Hist node1 ⟨{ term := 5, config := conf3, log := tenLeader.log, applied := 10, snap := some tenSnap }, none⟩ xs fx n ∧
    n.up = some s ∧ s.role = .leader ∧ (∀ x ∈ xs, x.isJoin = false) ∧ s.peers.map (fun p => (p.id, p.hbArmed)) = [(2, true), (3, false)] := by
  obtain ⟨n, fx, h, hp⟩ := Node.witness (c := node1)
    (n := ⟨{ term := 5, config := conf3, log := tenLeader.log, applied := 10, snap := some tenSnap }, none⟩) stopMoves
    (fun n _ => n.upIs fun s => decide (s.role = .leader ∧ s.peers.map (fun p => (p.id, p.hbArmed)) = [(2, true), (3, false)]))
    (by decide +kernel)
  obtain ⟨s, hs, h2⟩ := Node.upIs_some hp
  have h2 := of_decide_eq_true h2
  refine ⟨_, fx, n, s, h, hs, h2.1, fun x hx => ?_, h2.2⟩
  simp [stopMoves, Move.input] at hx
  rcases hx with rfl | rfl | rfl | rfl | rfl | rfl | rfl | rfl <;> rfl

/-- C122 fails for a leader that is invited to another cluster: it becomes a follower, and all timers run on. -/
theorem invited_leader_beats : ∃ xs fx n s, Hist node1 (Node.fresh conf3) xs fx n ∧ n.up = some s ∧ s.role = .follower ∧
    s.peers.map (fun p => (p.id, p.hbArmed)) = [(2, true), (3, true)] := by
  obtain ⟨n, fx, h, hp⟩ := Node.witness (c := node1) (n := Node.fresh conf3) (beatMoves ++ [.go (.req (joinReqOf 3 1))])
    (fun n _ => n.upIs fun s => decide (s.role = .follower ∧ s.peers.map (fun p => (p.id, p.hbArmed)) = [(2, true), (3, true)]))
    (by decide +kernel)
  obtain ⟨s, hs, h2⟩ := Node.upIs_some hp
  exact ⟨_, fx, n, s, h, hs, of_decide_eq_true h2⟩

/-- C122 fails for a leader with an open pre-vote, which an answer makes a candidate: all timers run on. -/
theorem candidate_beats : ∃ xs fx n s, Hist { node1 with params := { node1.params with prevote := true } } (Node.fresh conf3) xs fx n ∧
    n.up = some s ∧ s.role = .candidate ∧ (∀ x ∈ xs, x.isJoin = false) ∧ s.peers.map (fun p => (p.id, p.hbArmed)) = [(2, true), (3, true)] := by
  obtain ⟨n, fx, h, hp⟩ := Node.witness (c := { node1 with params := { node1.params with prevote := true } }) (n := Node.fresh conf3)
    [.start, .go .electionTimeout,
     .go (.extResp (.member 2) .prevoteReq { type := .prevoteResp, term := 0, src := 2, dst := 1, accepted := true }),
     .go (.req (appendReqOf 3 1 0 0 [] 0)), .go .electionTimeout, .go (voteRespOf 2 1 true),
     .go (.extResp (.member 2) .prevoteReq { type := .prevoteResp, term := 1, src := 2, dst := 1, accepted := true })]
    (fun n _ => n.upIs fun s => decide (s.role = .candidate ∧ s.peers.map (fun p => (p.id, p.hbArmed)) = [(2, true), (3, true)]))
    (by decide +kernel)
  obtain ⟨s, hs, h2⟩ := Node.upIs_some hp
  have h2 := of_decide_eq_true h2
  refine ⟨_, fx, n, s, h, hs, h2.1, fun x hx => ?_, h2.2⟩
  simp [Move.input] at hx
  rcases hx with rfl | rfl | rfl | rfl | rfl | rfl <;> rfl

end Cs.Raft
