import Verif.Raft.Events
import Verif.Raft.PropsLeader

/-!
# What the listener knows (C106)

`raft_event_listener`, include/events.hxx. What the server told its listener since it was started.
-/

namespace Cs.Raft
open Cs

/-- A server since it was started from disk `d`: what it did (`fx`) and its state. `P`: which inputs it gets in which states. It is
over when the process ends. -/
inductive Since (c : Setup) (P : Srv → Input → Prop) (d : Disk) : List Eff → Node → Prop
  | start : Since c P d [] ⟨d, some (boot c.id c.params c.env d)⟩
  | step {d1 : Disk} {s : Srv} {x : Input} {fx es : List Eff} {n : Node} :
      Since c P d fx ⟨d1, some s⟩ → P s x → Node.Step c ⟨d1, some s⟩ (some x) es n → Since c P d (fx ++ es) n

/-- The last thing the listener was told about the role: the server leads, or it does not. -/
def lastTold (fx : List Eff) : Option Bool :=
  (fx.filterMap fun
    | .event .becomeLeader => some true
    | .event .becomeFollower => some false
    | _ => none).getLast?

theorem lastTold_eq (fx : List Eff) : hears false fx = (lastTold fx).getD false := by
  have key : ∀ (fx : List Eff) (b : Bool), hears b fx = ((fx.filterMap Eff.says).getLast?).getD b := by
    intro fx
    induction fx with
    | nil => exact fun b => rfl
    | cons e fx ih =>
      intro b
      have h1 : hears b (e :: fx) = hears (e.says.getD b) fx := rfl
      rw [h1, ih]
      rcases he : e.says with _ | v
      · rw [List.filterMap_cons_none he]; rfl
      · rw [List.filterMap_cons_some he, List.getLast?_cons]
        rfl
  have h2 : (fun e : Eff => match e with
    | .event .becomeLeader => some true
    | .event .becomeFollower => some false
    | _ => none) = Eff.says := by
    funext e
    unfold Eff.says
    rfl
  unfold lastTold
  rw [h2]
  exact key fx false

theorem lastTold_true {fx : List Eff} : lastTold fx = some true ↔ hears false fx = true := by
  rw [lastTold_eq]
  rcases lastTold fx with _ | _ | _
  · exact ⟨fun h => (by cases h), fun h => (by cases h)⟩
  · exact ⟨fun h => (by cases h), fun h => (by cases h)⟩
  · exact ⟨fun _ => rfl, fun _ => rfl⟩

theorem step_ev {c : Setup} {d : Disk} {s s' : Srv} {x : Input} {es : List Eff} {d' : Disk} {b : Bool}
    (hs : Node.Step c ⟨d, some s⟩ (some x) es ⟨d', some s'⟩)
    (hx : b = true → x.isJoin = false ∧ (x.isVote = true → s.prevote = none)) :
    (s.Direct → s'.Direct) ∧ (s'.role = .leader → hears (decide (s.role = .leader)) es = true) ∧
    (b = true → s.Settled → s'.Settled ∧ (hears (decide (s.role = .leader)) es = true → s'.role = .leader)) := by
  have key : ∀ r, x.run { s with trace := [] } = (r, s') → es = s'.trace →
      (s.Direct → s'.Direct) ∧ (s'.role = .leader → hears (decide (s.role = .leader)) es = true) ∧
      (b = true → s.Settled → s'.Settled ∧ (hears (decide (s.role = .leader)) es = true → s'.role = .leader)) := by
    intro r hr he
    have h := ev_run (b := b) x { s with trace := [] } hx
    rw [hr] at h
    obtain ⟨h0, fs, h1, h2⟩ := h
    have : es = fs := he.trans h1
    rw [this]
    exact ⟨h0, h2⟩
  cases hs with
  | run hr => exact key _ hr rfl
  | survive hr => exact key _ hr rfl

/-- A server that leads has told its listener, and has not told anything else about its role since. -/
theorem leader_was_announced {c : Setup} {P : Srv → Input → Prop} {d d' : Disk} {fx : List Eff} {s : Srv}
    (h : Since c P d fx ⟨d', some s⟩) (hl : s.role = .leader) : lastTold fx = some true := by
  rw [lastTold_true]
  have key : ∀ {gx : List Eff} {n : Node}, Since c P d gx n → ∀ d' s, n = ⟨d', some s⟩ → s.role = .leader → hears false gx = true := by
    intro gx n h
    induction h with
    | start => intro d' s e hl; cases e; cases hl
    | step h1 hx hs ih =>
      rintro d' s rfl hl
      rw [hears_append]
      exact hears_mono (fun hy => ih _ _ rfl (of_decide_eq_true hy)) ((step_ev (b := false) hs fun h => (by cases h)).2.1 hl)
  exact key h d' s rfl hl

theorem since_settled {c : Setup} {P : Srv → Input → Prop} {d : Disk} {fx : List Eff} {n : Node}
    (h : Since c P d fx n) (hP : ∀ s x, P s x → x.isJoin = false ∧ (x.isVote = true → s.prevote = none)) :
    ∀ d' s, n = ⟨d', some s⟩ → s.Settled ∧ (hears false fx = true → s.role = .leader) := by
  induction h with
  | start => intro d' s e; cases e; exact ⟨fun _ => rfl, fun h => (by cases h)⟩
  | step h1 hx hs ih =>
    rintro d' s rfl
    obtain ⟨i1, i2⟩ := ih _ _ rfl
    obtain ⟨j1, j2⟩ := (step_ev (b := true) hs fun _ => hP _ _ hx).2.2 rfl i1
    refine ⟨j1, fun h => j2 ?_⟩
    rw [hears_append] at h
    exact hears_mono (fun hy => decide_eq_true (i2 hy)) h

/-- The inputs of a server that is not invited and counts no vote while it asks for pre-votes. -/
def Regular (s : Srv) (x : Input) : Prop := x.isJoin = false ∧ (x.isVote = true → s.prevote = none)

/-- The listener knows whether the server leads.

Missing: invitations to join (`invited_leader_is_silent`), and votes that are counted while a pre-vote of the server is open
(`elected_during_prevote_is_silent`). -/
theorem listener_knows_leader_partial {c : Setup} {d d' : Disk} {fx : List Eff} {s : Srv}
    (h : Since c Regular d fx ⟨d', some s⟩) : s.role = .leader ↔ lastTold fx = some true :=
  ⟨leader_was_announced h, fun ht => (since_settled h (fun _ _ h => h) d' s rfl).2 (lastTold_true.mp ht)⟩

/-- Without pre-votes the listener knows whether the server leads.

Missing: invitations to join (`invited_leader_is_silent`). -/
theorem listener_knows_leader_without_prevote_partial {c : Setup} {d d' : Disk} {fx : List Eff} {s : Srv} (hc : c.params.prevote = false)
    (h : Since c (fun _ x => x.isJoin = false) d fx ⟨d', some s⟩) : s.role = .leader ↔ lastTold fx = some true := by
  refine listener_knows_leader_partial (c := c) (d := d) (d' := d') ?_
  have key : ∀ {gx : List Eff} {n : Node}, Since c (fun _ x => x.isJoin = false) d gx n →
      Since c Regular d gx n ∧ ∀ d' s, n = ⟨d', some s⟩ → s.Direct := by
    intro gx n h
    induction h with
    | start => exact ⟨.start, fun d' s e => by cases e; exact ⟨hc, rfl⟩⟩
    | step h1 hx hs ih =>
      refine ⟨.step ih.1 ⟨hx, fun _ => (ih.2 _ _ rfl).2⟩ hs, ?_⟩
      rintro d' s rfl
      exact (step_ev (b := false) hs fun h => (by cases h)).1 (ih.2 _ _ rfl)
  exact (key h).1

/-! ## Sessions by evaluation -/

/-- Handle some inputs, if each of them is admitted. -/
def Srv.session (P : Srv → Input → Bool) : Srv → List Eff → List Input → Option (Srv × List Eff)
  | s, fx, [] => some (s, fx)
  | s, fx, x :: xs =>
    if P s x then
      match (x.run { s with trace := [] }).1 with
      | .ok _ => (x.run { s with trace := [] }).2.session P (fx ++ (x.run { s with trace := [] }).2.trace) xs
      | .error _ => none
    else none

theorem session_since {c : Setup} {P : Srv → Input → Prop} {Q : Srv → Input → Bool} (hQ : ∀ s x, Q s x = true → P s x) {d : Disk} :
    ∀ (xs : List Input) {s s' : Srv} {fx fx' : List Eff} {d1 : Disk}, Since c P d fx ⟨d1, some s⟩ → s.session Q fx xs = some (s', fx') →
      ∃ d', Since c P d fx' ⟨d', some s'⟩
  | [], s, s', fx, fx', d1, h, e => by cases e; exact ⟨d1, h⟩
  | x :: xs, s, s', fx, fx', d1, h, e => by
    unfold Srv.session at e
    by_cases hq : Q s x = true
    · rw [if_pos hq] at e
      rcases hr : x.run { s with trace := [] } with ⟨u | u, t⟩
      · rw [hr] at e; cases e
      · rw [hr] at e
        exact session_since hQ xs (.step h (hQ s x hq) (.run hr)) e
    · rw [if_neg hq] at e; cases e

theorem session_check {c : Setup} {P : Srv → Input → Prop} {Q : Srv → Input → Bool} (hQ : ∀ s x, Q s x = true → P s x) (d : Disk)
    (xs : List Input) (R : Srv → List Eff → Bool)
    (h : (match (boot c.id c.params c.env d).session Q [] xs with | some (s, fx) => R s fx | none => false) = true) :
    ∃ d' s fx, Since c P d fx ⟨d', some s⟩ ∧ R s fx = true := by
  rcases he : (boot c.id c.params c.env d).session Q [] xs with _ | ⟨s, fx⟩
  · rw [he] at h; cases h
  · rw [he] at h
    obtain ⟨d', hd⟩ := session_since hQ xs .start he
    exact ⟨d', s, fx, hd, h⟩

/-- A server that is elected, and one that is elected and then hears of a newer term. -/
example :
    (∃ d' s fx, Since node1 (fun _ x => x.isJoin = false) { config := conf3 } fx ⟨d', some s⟩ ∧ s.role = .leader) ∧
    (∃ d' s fx, Since node1 (fun _ x => x.isJoin = false) { config := conf3 } fx ⟨d', some s⟩ ∧ s.role = .follower ∧
      lastTold fx = some false ∧ .event .becomeLeader ∈ fx) := by
  constructor
  · obtain ⟨d', s, fx, h, hp⟩ := session_check (c := node1) (P := fun _ x => x.isJoin = false) (Q := fun _ x => !x.isJoin)
      (fun s x h => by simpa using h) { config := conf3 } [.electionTimeout, voteRespOf 2 1 true]
      (fun s _ => decide (s.role = .leader)) (by decide +kernel)
    exact ⟨d', s, fx, h, of_decide_eq_true hp⟩
  · obtain ⟨d', s, fx, h, hp⟩ := session_check (c := node1) (P := fun _ x => x.isJoin = false) (Q := fun _ x => !x.isJoin)
      (fun s x h => by simpa using h) { config := conf3 } [.electionTimeout, voteRespOf 2 1 true, .req (appendReqOf 3 2 0 0 [] 0)]
      (fun s fx => decide (s.role = .follower ∧ lastTold fx = some false ∧ .event .becomeLeader ∈ fx)) (by decide +kernel)
    exact ⟨d', s, fx, h, of_decide_eq_true hp⟩

/-- C106 fails for a leader that is invited to another cluster: it becomes a follower, and nothing is told. -/
theorem invited_leader_is_silent :
    ∃ d' s fx, Since node1 (fun _ _ => True) { config := conf3 } fx ⟨d', some s⟩ ∧ s.role = .follower ∧ lastTold fx = some true := by
  obtain ⟨d', s, fx, h, hp⟩ := session_check (c := node1) (P := fun _ _ => True) (Q := fun _ _ => true)
    (fun _ _ _ => True.intro) { config := conf3 } [.electionTimeout, voteRespOf 2 1 true, .req (joinReqOf 3 1)]
    (fun s fx => decide (s.role = .follower ∧ lastTold fx = some true)) (by decide +kernel)
  exact ⟨d', s, fx, h, of_decide_eq_true hp⟩

/-- C106 fails if votes are counted while a pre-vote is open: server 1 asks for votes, hears of another leader of the same term, asks for
pre-votes, and is elected with the votes; then an answer to the pre-vote makes the leader a candidate. (Two servers are leaders of the same
term here.) -/
theorem elected_during_prevote_is_silent :
    ∃ d' s fx, Since { node1 with params := { node1.params with prevote := true } } (fun _ x => x.isJoin = false) { config := conf3 } fx
      ⟨d', some s⟩ ∧ s.role = .candidate ∧ lastTold fx = some true := by
  obtain ⟨d', s, fx, h, hp⟩ := session_check (c := { node1 with params := { node1.params with prevote := true } })
    (P := fun _ x => x.isJoin = false) (Q := fun _ x => !x.isJoin)
    (fun s x h => by simpa using h) { config := conf3 }
    [.electionTimeout, .extResp (.member 2) .prevoteReq { type := .prevoteResp, term := 0, src := 2, dst := 1, accepted := true },
     .req (appendReqOf 3 1 0 0 [] 0), .electionTimeout, voteRespOf 2 1 true,
     .extResp (.member 2) .prevoteReq { type := .prevoteResp, term := 1, src := 2, dst := 1, accepted := true }]
    (fun s fx => decide (s.role = .candidate ∧ lastTold fx = some true)) (by decide +kernel)
  exact ⟨d', s, fx, h, of_decide_eq_true hp⟩

end Cs.Raft
