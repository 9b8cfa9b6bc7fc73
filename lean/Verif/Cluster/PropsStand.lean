import Verif.Raft.PropsStand
import Verif.Cluster.Witness

/-!
# A server without a leader keeps trying (the cluster)

Two servers of three are up for ever and can talk to each other. With pre-votes enabled they need not elect a leader.
-/

namespace Cs.Raft
open Cs

/-- What may reach server `i`: messages sent since `E0` (the events `es`), timers, clients, and failures of any request. -/
inductive Recent (E0 es : List Ev) (i : Int) : Input → Prop
  | new {x : Input} : Deliver es i x → Recent E0 es i x
  | lost {q : Req} : Deliver E0 i (.peerErr q) → Recent E0 es i (.peerErr q)
  | prelost {q : Req} : Deliver E0 i (.extErr (.member q.dst) q) → Recent E0 es i (.extErr (.member q.dst) q)

/-- Executions from `w0` on in which the servers `D` take no step and the other servers do not crash. Messages under way at `w0` are
lost. The election timer may expire at any time. -/
inductive Cluster.Later (C : Cluster) (D : List Int) (w0 : World) : World → Prop
  | refl : Later C D w0 w0
  | step {w : World} {i : Int} {x : Input} {es fx : List _} {n : Node} : Later C D w0 w → w.evs = w0.evs ++ es → i ∈ C.ids → i ∉ D →
      Recent w0.evs es i x → (w.node i).Step (C.setup i) (some x) fx n → n.up ≠ none →
      Later C D w0 ⟨fun k => if k = i then n else w.node k, w.evs ++ fx.map fun e => ⟨i, some x, e⟩⟩

/-- A follower that waits for answers to its pre-vote requests, and has applied what it knows to be committed. -/
structure Stuck (s : Srv) : Prop where
  role : s.role = .follower
  armed : s.armed = false
  joined : s.catchingUp = false
  stays : s.stepsToDown ≤ 0
  param : s.params.prevote = true
  round : s.asking
  done : s.canApply = false

theorem Stuck.quiet {s : Srv} (h : Stuck s) {E0 es : List Ev} {i : Int} {x : Input} (hx : Recent E0 es i x)
    (he : ∀ ev ∈ es, ∀ r, ev.eff ≠ .send r) :
    ∃ s' fx, x.run s = (.ok ⟨⟩, s') ∧ Stuck s' ∧ s'.trace = s.trace ++ fx ∧ ∀ r, .send r ∉ fx := by
  have none {s1 : Srv} (e1 : s1.trace = s.trace) : ∃ fx, s1.trace = s.trace ++ fx ∧ ∀ r, .send r ∉ fx :=
    ⟨[], by rw [e1, List.append_nil], fun _ h => by cases h⟩
  have keep (p : PeerRef) (ty : MsgType) (ok : Bool) : ∃ s', rpcResult p ty ok s = (.ok ⟨⟩, s') ∧ Stuck s' ∧ s'.trace = s.trace := by
    obtain ⟨ps, j, e, _⟩ := rpcResult_run p ty ok s
    exact ⟨_, e, ⟨h.role, h.armed, h.joined, h.stays, h.param, h.round, h.done⟩, rfl⟩
  have perr {q : Req} : ∃ s' fx, (Input.peerErr q).run s = (.ok ⟨⟩, s') ∧ Stuck s' ∧ s'.trace = s.trace ++ fx ∧ ∀ r, .send r ∉ fx := by
    obtain ⟨s', e, h1, h2⟩ := keep (.member q.dst) q.type false
    obtain ⟨fx, h3, h4⟩ := none h2
    exact ⟨s', fx, e, h1, h3, h4⟩
  have eerr {q : Req} (hq : q.type = .prevoteReq) : ∃ s' fx, (Input.extErr (.member q.dst) q).run s = (.ok ⟨⟩, s') ∧ Stuck s' ∧
      s'.trace = s.trace ++ fx ∧ ∀ r, .send r ∉ fx := by
    obtain ⟨s', e, h1, h2⟩ := keep (.member q.dst) q.type false
    obtain ⟨fx, h3, h4⟩ := none h2
    refine ⟨s', fx, ?_, h1, h3, h4⟩
    show (rpcResult (.member q.dst) q.type false >>= fun _ => handleExtErr q) s = _
    rw [run_bind_ok e]
    unfold handleExtErr
    rw [bind_get, hq]
    rfl
  have nolead : isLeader s = (.ok false, s) := by
    unfold isLeader
    rw [bind_get, if_neg (by rw [h.role]; exact fun h => by cases h.1)]
    show (Except.ok (decide (s.role = .leader)), s) = _
    rw [h.role]
    rfl
  cases hx with
  | lost _ => exact perr
  | @prelost q hd =>
    refine eerr ?_
    generalize hy : Input.extErr (.member q.dst) q = y at hd
    cases hd with
    | @prefailed e1 q' _ _ _ hq =>
      injection hy with _ h2
      rw [h2]
      exact hq
    | _ => cases hy
  | new hd =>
    cases hd with
    | request h1 h2 _ => exact absurd h2 (he _ h1 _)
    | answer h1 _ h2 => exact absurd h2 (he _ h1 _)
    | prevoted h1 _ h2 => exact absurd h2 (he _ h1 _)
    | failed h1 _ h2 => exact absurd h2 (he _ h1 _)
    | prefailed h1 _ h2 => exact absurd h2 (he _ h1 _)
    | @client m h1 h2 =>
      have e1 : s.heard m = s := by
        unfold Srv.heard
        rw [h1]
        rfl
      have e2 : processReq m s = (.ok { type := .appendResp, term := s.term, src := s.id, dst := s.leader }, s) := by
        rw [run_processReq, e1]
        unfold dispatch
        rw [h1]
        show handleCliReq m s = _
        unfold handleCliReq
        rw [run_bind_ok nolead, bind_get, if_neg (by rw [h.role]; exact fun h => by cases h.1), if_pos rfl]
        rfl
      generalize ({ type := .appendResp, term := s.term, src := s.id, dst := s.leader } : Resp) = a at e2
      refine ⟨{ s with trace := s.trace ++ [.reply a] }, [.reply a], ?_, ⟨h.role, h.armed, h.joined, h.stays, h.param, h.round, h.done⟩, rfl, ?_⟩
      · show (processReq m >>= fun resp => emit (.reply resp)) s = _
        rw [run_bind_ok e2]
        rfl
      · intro r hr
        cases List.mem_singleton.1 hr
    | election =>
      obtain ⟨v, n, hv, hne⟩ := h.round
      refine ⟨{ s with armed := false }, [], ?_, ⟨h.role, rfl, h.joined, h.stays, h.param, h.round, h.done⟩, (List.append_nil _).symm, fun _ h => by cases h⟩
      show handleElectionTimeout s = _
      unfold handleElectionTimeout
      rw [bind_modify, bind_get, if_neg (show ¬ 0 < s.stepsToDown by have := h.stays; omega),
        if_neg (show ¬ s.catchingUp = true by rw [h.joined]; exact Bool.false_ne_true),
        if_neg (show ¬ s.role = .leader by rw [h.role]; exact fun h => (by cases h)), if_pos (show s.params.prevote = true ∧ s.role = .follower from ⟨h.param, h.role⟩)]
      dsimp only
      rw [hv]
      dsimp only
      rw [if_pos (by
        rcases v with _ | ⟨a, v⟩
        · exact absurd rfl hne
        · rfl)]
      rfl
    | @heartbeat k =>
      refine ⟨s.setPeer (.member k) fun p => { p with hbArmed := false }, [], ?_, ⟨h.role, h.armed, h.joined, h.stays, h.param, h.round, h.done⟩,
        (List.append_nil _).symm, fun _ h => by cases h⟩
      show handleHbTimeout (.member k) s = _
      unfold handleHbTimeout
      rw [bind_modPeer, bind_get, if_neg (show ¬ (s.setPeer (.member k) _).role = .leader by show ¬ s.role = .leader; rw [h.role]; exact fun h => (by cases h))]
      rfl
    | apply =>
      refine ⟨s, [], ?_, h, (List.append_nil _).symm, fun _ h => by cases h⟩
      show applyOne s = _
      unfold applyOne
      rw [bind_get, if_neg (by rw [h.done]; exact Bool.false_ne_true)]
      rfl
    | @replicate d =>
      refine ⟨s, [], ?_, h, (List.append_nil _).symm, fun _ h => by cases h⟩
      show (replicateLog d >>= fun _ => pure ()) s = _
      have e : replicateLog d s = (.ok false, s) := by
        unfold replicateLog
        rw [run_bind_ok nolead]
        rfl
      rw [run_bind_ok e]
      rfl
    | @tick t =>
      exact ⟨{ s with now := t }, [], rfl, ⟨h.role, h.armed, h.joined, h.stays, h.param, h.round, h.done⟩, (List.append_nil _).symm, fun _ h => by cases h⟩

/-- All servers that are not down for good are stuck. -/
def World.AllStuck (C : Cluster) (D : List Int) (w : World) : Prop :=
  (∀ i ∈ C.ids, i ∉ D → ∃ s, (w.node i).up = some s ∧ Stuck s) ∧ ∀ i ∈ D, (w.node i).up = none

/-- They stay so, and nobody sends anything. -/
theorem stuck_forever {C : Cluster} {D : List Int} {w0 w : World} (h : w0.AllStuck C D) (hl : C.Later D w0 w) :
    w.AllStuck C D ∧ ∃ es, w.evs = w0.evs ++ es ∧ ∀ ev ∈ es, ∀ r, ev.eff ≠ .send r := by
  induction hl with
  | refl => exact ⟨h, [], (List.append_nil _).symm, fun _ h => by cases h⟩
  | @step w i x es fx n h0 he hi hd hx hs hn ih =>
    obtain ⟨⟨h1, h1'⟩, es', h2, h3⟩ := ih
    have : es' = es := List.append_cancel_left (h2.symm.trans he)
    subst this
    obtain ⟨s, hup, hst⟩ := h1 i hi hd
    obtain ⟨s', fx', e, h4, h5, h6⟩ := Stuck.quiet (s := { s with trace := [] })
      ⟨hst.role, hst.armed, hst.joined, hst.stays, hst.param, hst.round, hst.done⟩ hx h3
    have key : n.up = some s' ∧ fx = fx' := by
      rcases hnode : w.node i with ⟨d, up⟩
      rw [hnode] at hup hs
      dsimp only at hup
      subst hup
      cases hs with
      | run hr => rw [e] at hr; cases hr; exact ⟨rfl, h5⟩
      | survive hr => rw [e] at hr; cases hr
      | crash => exact absurd rfl hn
    refine ⟨⟨fun k hk hkd => ?_, fun k hk => ?_⟩, es' ++ fx.map fun e => ⟨i, some x, e⟩, ?_, ?_⟩
    · by_cases hki : k = i
      · subst hki
        exact ⟨s', by show (if k = k then n else w.node k).up = _; rw [if_pos rfl]; exact key.1, h4⟩
      · show ∃ s, (if k = i then n else w.node k).up = some s ∧ Stuck s
        rw [if_neg hki]
        exact h1 k hk hkd
    · show (if k = i then n else w.node k).up = none
      rw [if_neg (fun (e : k = i) => hd (by rw [← e]; exact hk))]
      exact h1' k hk
    · show w.evs ++ _ = _
      rw [h2, List.append_assoc]
    · intro ev hev r hr
      rcases List.mem_append.1 hev with hev | hev
      · exact h3 ev hev r hr
      · obtain ⟨e', h7, rfl⟩ := List.mem_map.1 hev
        rw [key.2] at h7
        exact h6 r (hr ▸ h7)

/-- Decides `Stuck`. -/
def Srv.stuckB (s : Srv) : Bool :=
  s.role == .follower && !s.armed && !s.catchingUp && decide (s.stepsToDown ≤ 0) && s.params.prevote &&
    (match s.prevote with | some (v, _) => !v.isEmpty | none => false) && !s.canApply

theorem Srv.stuckB_sound {s : Srv} (h : s.stuckB = true) : Stuck s := by
  unfold Srv.stuckB at h
  simp only [Bool.and_eq_true, beq_iff_eq, Bool.not_eq_true', decide_eq_true_eq] at h
  obtain ⟨⟨⟨⟨⟨⟨h1, h2⟩, h3⟩, h4⟩, h5⟩, h6⟩, h7⟩ := h
  refine ⟨h1, h2, h3, h4, h5, ?_, h7⟩
  rcases hp : s.prevote with _ | ⟨v, n⟩
  · rw [hp] at h6; cases h6
  · rw [hp] at h6
    exact ⟨v, n, hp, by rintro rfl; cases h6⟩

namespace Witness

/-- Three servers with pre-votes. -/
def trioP : Cluster := { trio with params := fun _ => { prevote := true } }

theorem trioP_ok : trioP.Ok := ⟨by decide, by decide, fun _ => rfl, fun _ => rfl⟩

/-- Server 1 is elected; all servers store and apply the configuration; server 1 appends command 7 and server 2 stores it; server 1
crashes. Server 2 asks for pre-votes, and server 3 refuses, since its own timer has not expired yet. Server 3 asks, and server 2
refuses, since its log is longer. -/
def standstill : List Play :=
  [.start 1, .start 2, .start 3, .election 1, .election 2, .recv 0, .preback 0 4, .recv 7, .recv 8, .back 7 12, .recv 20, .recv 21,
   .back 20 23, .back 21 25, .recv 27, .recv 28, .apply 1, .apply 2, .apply 3, .back 27 30, .back 28 32, .client 1 7, .recv 38, .kill 1,
   .election 2, .recv 45, .preback 45 46, .election 3, .recv 48, .preback 48 49]

end Witness
open Witness

/-- The code violates the property: with pre-votes enabled, a cluster of three servers that has had a leader gets to a state in which
server 1 is down and servers 2 and 3 are up. If 1 stays down, then for ever after, with 2 and 3 up and all that happens to them --
timers, clients, failures of their requests to server 1 -- neither becomes leader, and neither sends anything any more. -/
theorem no_leader_ever : ∃ w0, trioP.Reach w0 ∧ (∃ ev ∈ w0.evs, ev.eff = .lead 1) ∧ (w0.node 1).up = none ∧
    (∃ s, (w0.node 2).up = some s) ∧ (∃ s, (w0.node 3).up = some s) ∧
    ∀ w, trioP.Later [1] w0 w → (∀ i ∈ trioP.ids, ∀ t, ¬ w.Leads i t) ∧
      ∃ es, w.evs = w0.evs ++ es ∧ ∀ ev ∈ es, ∀ r, ev.eff ≠ .send r := by
  obtain ⟨w0, h1, h2⟩ := World.witness (C := trioP) standstill (fun w => w.did 1 (.lead 1) && (w.node 1).up.isNone &&
    (match (w.node 2).up with | some s => s.stuckB | none => false) && (match (w.node 3).up with | some s => s.stuckB | none => false))
    (by decide +kernel)
  simp only [Bool.and_eq_true, Option.isNone_iff_eq_none] at h2
  obtain ⟨⟨⟨h3, h4⟩, h5⟩, h6⟩ := h2
  obtain ⟨ev, h7, _, h8⟩ := World.did_mem h3
  rcases e2 : (w0.node 2).up with _ | s2
  · rw [e2] at h5; cases h5
  rcases e3 : (w0.node 3).up with _ | s3
  · rw [e3] at h6; cases h6
  rw [e2] at h5
  rw [e3] at h6
  refine ⟨w0, h1, ⟨ev, h7, h8⟩, h4, ⟨s2, e2⟩, ⟨s3, e3⟩, fun w hw => ?_⟩
  have hst : w0.AllStuck trioP [1] := by
    refine ⟨fun i hi hd => ?_, fun i hi => ?_⟩
    · have : i = 1 ∨ i = 2 ∨ i = 3 := by
        have hi : i ∈ [(1 : Int), 2, 3] := hi
        simpa using hi
      rcases this with rfl | rfl | rfl
      · exact absurd (List.mem_singleton.2 rfl) hd
      · exact ⟨s2, e2, Srv.stuckB_sound h5⟩
      · exact ⟨s3, e3, Srv.stuckB_sound h6⟩
    · rw [List.mem_singleton.1 hi]; exact h4
  obtain ⟨⟨h9, h9'⟩, h10⟩ := stuck_forever hst hw
  refine ⟨fun i hi t ⟨s, a, b, _⟩ => ?_, h10⟩
  by_cases hd : i ∈ [(1 : Int)]
  · rw [h9' i hd] at a; cases a
  · obtain ⟨s', c, d⟩ := h9 i hi hd
    rw [a] at c
    cases c
    rw [d.role] at b
    cases b

end Cs.Raft
