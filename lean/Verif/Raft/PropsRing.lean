import Verif.Raft.NoRing
import Verif.Raft.PropsBeat
import Verif.Raft.PropsSender

/-!
# C123: a leader is not ended by its own election timer

`handle_election_timeout` (raft_server.cxx 212-217) ends the process if the server leads.
-/

namespace Cs.Raft
open Cs

/-! ## Specification -/

/-- An expiry of the election timer is handled only while this timer runs. -/
def Due (s : Srv) (x : Input) : Prop := x = .electionTimeout → s.armed = true

/-! ## C123 -/

/-- C123 without pre-votes: in every history in which expiries are handled only while the timer runs, with crashes, restarts, invitations,
changes of the configuration and exceptions, the election timer of a server that leads does not run. So no expiry finds a leader.

Missing: pre-votes and late expiries, with which it is false: `refused_prevotes_end_leader`, `late_expiry_ends_leader`. -/
theorem leader_timer_off_partial {c : Setup} {n n' : Node} {xs : List Input} {fx : List Eff} (h : HistIf c Due n xs fx n')
    (hn : n.up = none) (hv : c.params.prevote = false) {s : Srv} (hs : n'.up = some s) (hl : s.role = .leader) : s.armed = false := by
  have key : ∀ s, n'.up = some s → s.NoPrevote ∧ s.Unrung := by
    clear hs hl s
    induction h with
    | nil => exact fun s hs => (by rw [hn] at hs; cases hs)
    | @step n1 n2 xs fx es x h1 hx hs ih =>
      have run : ∀ (s : Srv) (y : Input), n1.up = some s → x = some y →
          (y.run { s with trace := [] }).2.NoPrevote ∧ (y.run { s with trace := [] }).2.Unrung := by
        intro s y hu hy
        have g := ih s hu
        have hr : NoRing { s with trace := [] } (y.run { s with trace := [] }).2 := rg_run fun he hl => by
          have h2 := hx s y hu hy he
          rw [g.2 hl] at h2
          cases h2
        exact ⟨(hr g.1).1, (hr g.1).2 g.2⟩
      cases hs with
      | @run d s s' x hr =>
        intro s0 h0
        cases h0
        have := run s x rfl rfl
        rw [hr] at this
        exact this
      | @survive d s s' x hr =>
        intro s0 h0
        cases h0
        have := run s x rfl rfl
        rw [hr] at this
        exact this
      | crash _ => exact fun s hs => (by cases hs)
      | boot => exact fun s hs => (by cases hs; exact ⟨⟨hv, rfl⟩, fun h => (by cases h)⟩)
  exact (key s hs).2 hl

/-! ## Concrete histories -/

/-- A script is played, if expiries are due. -/
def Node.playDue (c : Setup) (n : Node) (fx : List Eff) : List Move → Option (Node × List Eff)
  | [] => some (n, fx)
  | a :: as =>
    if n.up.all (fun s => a.input.all fun x => !decide (x = .electionTimeout) || s.armed) = true then
      match n.act c a with
      | some (n', es) => n'.playDue c (fx ++ es) as
      | none => none
    else none

theorem Node.playDue_hist {c : Setup} {n0 : Node} : ∀ {as : List Move} {n n' : Node} {xs : List Input} {fx fx' : List Eff},
    HistIf c Due n0 xs fx n → n.playDue c fx as = some (n', fx') → HistIf c Due n0 (xs ++ as.flatMap Move.input) fx' n'
  | [], _, _, _, _, _, h, hp => by cases hp; simpa using h
  | a :: as, n, n', xs, fx, fx', h, hp => by
    unfold Node.playDue at hp
    split at hp
    · next hc =>
      rcases ha : n.act c a with _ | ⟨n1, es⟩
      · rw [ha] at hp; cases hp
      · rw [ha] at hp
        obtain ⟨x, hx, hs⟩ := Node.act_step ha
        have := Node.playDue_hist (.step h (fun s y hu hy he => by
          rw [hu] at hc
          have := List.all_eq_true.1 hc y (by rw [← hx, hy]; simp)
          simpa [he] using this) hs) hp
        rw [hx] at this
        simpa using this
    · cases hp

theorem Node.due_witness {c : Setup} {n : Node} (as : List Move) (P : Srv → Bool)
    (h : (n.playDue c [] as).any (fun r => r.1.upIs P) = true) :
    ∃ n' fx s, HistIf c Due n (as.flatMap Move.input) fx n' ∧ n'.up = some s ∧ P s = true := by
  rcases hp : n.playDue c [] as with _ | ⟨n', fx⟩
  · rw [hp] at h; cases h
  · rw [hp] at h
    obtain ⟨s, hs, h2⟩ := Node.upIs_some (n := n') h
    exact ⟨n', fx, s, by simpa using Node.playDue_hist .nil hp, hs, h2⟩

/-- The hypotheses of `leader_timer_off_partial` can be met: the timer expires twice, and in between server 1 leads and is deposed. -/
example : ∃ xs fx n s, HistIf node1 Due (Node.fresh conf3) xs fx n ∧ (Node.fresh conf3).up = none ∧ node1.params.prevote = false ∧
    n.up = some s ∧ s.role = .leader ∧ s.term = 3 ∧ .electionTimeout ∈ xs := by
  obtain ⟨n, fx, s, h, hs, h2⟩ := Node.due_witness (c := node1) (n := Node.fresh conf3)
    (beatMoves ++ [.go (.req (appendReqOf 3 2 0 0 [] 0)), .go .electionTimeout, .go (voteRespOf 2 3 true)])
    (fun s => decide (s.role = .leader ∧ s.term = 3)) (by decide +kernel)
  have h2 := of_decide_eq_true h2
  exact ⟨_, fx, n, s, h, rfl, rfl, hs, h2.1, h2.2, by simp [beatMoves, Move.input]⟩

/-- Server 1 is asking for pre-votes when the vote of server 2 for an earlier candidacy of it arrives. It leads, and the pre-votes are
refused. -/
def refusedMoves : List Move :=
  [.start, .go .electionTimeout,
   .go (.extResp (.member 2) .prevoteReq { type := .prevoteResp, term := 0, src := 2, dst := 1, accepted := true }),
   .go (.req (appendReqOf 3 1 0 0 [] 0)), .go .electionTimeout, .go (voteRespOf 2 1 true),
   .go (.extResp (.member 2) .prevoteReq { type := .prevoteResp, term := 1, src := 2, dst := 1 }),
   .go (.extResp (.member 3) .prevoteReq { type := .prevoteResp, term := 1, src := 3, dst := 1 })]

/-- C123 fails with pre-votes: the refusals start the election timer of a leader, and its expiry ends the process. -/
theorem refused_prevotes_end_leader : ∃ xs fx n s, HistIf { node1 with params := { node1.params with prevote := true } } Due
    (Node.fresh conf3) xs fx n ∧ n.up = some s ∧ s.role = .leader ∧ s.armed = true ∧
    (Input.electionTimeout.run { s with trace := [] }).1 = .error (.exit (-1)) := by
  obtain ⟨n, fx, s, h, hs, h2⟩ := Node.due_witness (c := { node1 with params := { node1.params with prevote := true } })
    (n := Node.fresh conf3) refusedMoves
    (fun s => decide (s.role = .leader ∧ s.armed = true) && match (Input.electionTimeout.run { s with trace := [] }).1 with
      | .error (.exit c) => c == -1
      | _ => false) (by decide +kernel)
  rw [Bool.and_eq_true] at h2
  have h3 := of_decide_eq_true h2.1
  refine ⟨_, fx, n, s, h, hs, h3.1, h3.2, ?_⟩
  have h2 := h2.2
  split at h2
  · next c hc => rw [hc, eq_of_beq h2]
  · cases h2

/-- C123 fails for an expiry that is handled late. The timer of a candidate expires, and the task waits for the lock of the server, which
another thread holds to handle a vote. The server then leads, and the expiry ends the process. -/
theorem late_expiry_ends_leader : ∃ xs fx n s s', HistIf node1 Due (Node.fresh conf3) xs fx n ∧ n.up = some s ∧ s.role = .candidate ∧
    s.armed = true ∧ (voteRespOf 2 1 true).run { s with trace := [] } = (.ok ⟨⟩, s') ∧ s'.role = .leader ∧ s'.armed = false ∧
    (Input.electionTimeout.run { s' with trace := [] }).1 = .error (.exit (-1)) := by
  obtain ⟨n, fx, s, h, hs, h2⟩ := Node.due_witness (c := node1) (n := Node.fresh conf3) [.start, .go .electionTimeout]
    (fun s => decide (s.role = .candidate ∧ s.armed = true) && match (voteRespOf 2 1 true).run { s with trace := [] } with
      | (.ok _, s') => decide (s'.role = .leader ∧ s'.armed = false) && match (Input.electionTimeout.run { s' with trace := [] }).1 with
        | .error (.exit c) => c == -1
        | _ => false
      | _ => false) (by decide +kernel)
  rw [Bool.and_eq_true] at h2
  have h3 := of_decide_eq_true h2.1
  have h2 := h2.2
  rcases hr : (voteRespOf 2 1 true).run { s with trace := [] } with ⟨_ | _, s'⟩
  · rw [hr] at h2; cases h2
  · rw [hr] at h2
    have h2 : (decide (s'.role = .leader ∧ s'.armed = false) && match (Input.electionTimeout.run { s' with trace := [] }).1 with
        | .error (.exit c) => c == -1
        | _ => false) = true := h2
    rw [Bool.and_eq_true] at h2
    have h4 := of_decide_eq_true h2.1
    refine ⟨_, fx, n, s, s', h, hs, h3.1, h3.2, hr, h4.1, h4.2, ?_⟩
    have h2 := h2.2
    split at h2
    · next c hc => rw [hc, eq_of_beq h2]
    · cases h2

end Cs.Raft
