import Verif.Cluster.Play

/-!
# Clusters whose members change

As in `Verif/Cluster/Spec.lean`, but servers are added and removed, snapshots are taken, and servers start with different
configuration files: those that found the cluster name its first members, others are waiting to be added.
-/

namespace Cs.Raft
open Cs

/-- What is required of the servers: ids are different, and none is -1. -/
structure Cluster.Named (C : Cluster) : Prop where
  nodup : C.ids.Nodup
  named : -1 ∉ C.ids

/-- Requests whose answers go to `ex_resp_handler_` with the member they were sent to (raft_server.cxx 285-298 for prevotes,
raft_server_req_handlers.cxx 459-467 for requests to leave). -/
def MsgType.toMember : MsgType → Bool
  | .prevoteReq | .leaveReq => true
  | _ => false

/-- Requests whose answers go to `ex_resp_handler_` with the server that is about to join (raft_server_req_handlers.cxx
536-592: log pack or snapshot 577, invitation 591). -/
def MsgType.toJoining : MsgType → Bool
  | .joinReq | .syncReq | .snpReq => true
  | _ => false

/-- Requests whose answers go to `resp_handler_` (raft_server.cxx 322-335 for votes, 360-368 for log entries and
snapshots). -/
def MsgType.toPeer : MsgType → Bool
  | .appendReq | .voteReq | .snpReq => true
  | _ => false

/-- Inputs server `i` may get after the events `E`. -/
inductive DeliverC (E : List Ev) (i : Int) : Input → Prop
  /-- a request another server has sent to it -/
  | request {ev : Ev} {m : Req} : ev ∈ E → ev.eff = .send m → m.dst = i → DeliverC E i (.req m)
  /-- a request of a client: commands, a server to add, a server to remove -/
  | client {m : Req} : m.type = .clientReq → (∀ e ∈ m.entries, e.isApp = true) → DeliverC E i (.req m)
  | add {m : Req} {t : Nat} {c : SrvCfg} : m.type = .addReq → m.entries = [⟨t, .srv c⟩] → DeliverC E i (.req m)
  | remove {m : Req} {t : Nat} {k : Int} : m.type = .rmReq → m.entries = [⟨t, .rmId k⟩] → DeliverC E i (.req m)
  /-- the answer to a request it has sent -/
  | answer {e1 e2 : Ev} {q : Req} {r : Resp} : e1 ∈ E → e1.node = i → e1.eff = .send q → q.type.toPeer = true →
      e2 ∈ E → e2.node = q.dst → e2.cause = some (.req q) → e2.eff = .reply r → DeliverC E i (.peerResp q.type r)
  | member {e1 e2 : Ev} {q : Req} {r : Resp} : e1 ∈ E → e1.node = i → e1.eff = .send q → q.type.toMember = true →
      e2 ∈ E → e2.node = q.dst → e2.cause = some (.req q) → e2.eff = .reply r → DeliverC E i (.extResp (.member q.dst) q.type r)
  | joining {e1 e2 : Ev} {q : Req} {r : Resp} : e1 ∈ E → e1.node = i → e1.eff = .send q → q.type.toJoining = true →
      e2 ∈ E → e2.node = q.dst → e2.cause = some (.req q) → e2.eff = .reply r → DeliverC E i (.extResp .joining q.type r)
  /-- a request it has sent failed -/
  | failed {e1 : Ev} {q : Req} : e1 ∈ E → e1.node = i → e1.eff = .send q → q.type.toPeer = true → DeliverC E i (.peerErr q)
  | memberFailed {e1 : Ev} {q : Req} : e1 ∈ E → e1.node = i → e1.eff = .send q → q.type.toMember = true →
      DeliverC E i (.extErr (.member q.dst) q)
  | joiningFailed {e1 : Ev} {q : Req} : e1 ∈ E → e1.node = i → e1.eff = .send q → q.type.toJoining = true →
      DeliverC E i (.extErr .joining q)
  /-- it is sent again -/
  | retry {e1 : Ev} {q : Req} : e1 ∈ E → e1.node = i → e1.eff = .send q → DeliverC E i (.retry q)
  /-- timers, the commit thread, the application, time, the state machine -/
  | election : DeliverC E i .electionTimeout
  | heartbeat {k : Int} : DeliverC E i (.hbTimeout k)
  | apply : DeliverC E i .apply
  | replicate {d : Nat} : DeliverC E i (.replicate d)
  | tick {n : Nat} : DeliverC E i (.tick n)
  | snapped {ev : Ev} {s : Snap} {ok : Bool} : ev ∈ E → ev.node = i → ev.eff = .createSnp s → DeliverC E i (.snapDone s ok)

/-- One server takes a step. -/
inductive Cluster.CStep (C : Cluster) (w : World) : World → Prop
  | mk {i : Int} {x : Option Input} {es : List Eff} {n : Node} : i ∈ C.ids → (∀ y, x = some y → DeliverC w.evs i y) →
      (w.node i).Step (C.setup i) x es n →
      CStep C w ⟨fun k => if k = i then n else w.node k, w.evs ++ es.map fun e => ⟨i, x, e⟩⟩

/-- Executions from one state to a later one. -/
inductive Cluster.CRun (C : Cluster) (w : World) : World → Prop
  | refl : CRun C w w
  | step {w1 w2 : World} : CRun C w w1 → C.CStep w1 w2 → CRun C w w2

/-- States the cluster can get to. -/
def Cluster.CReach (C : Cluster) (w : World) : Prop := C.CRun C.init w

/-! ## Scripts -/

/-- A move of a script. Messages are named by the number of the event that sent them. -/
inductive CPlay where
  /-- the server starts -/
  | start (i : Int)
  /-- the server crashes -/
  | kill (i : Int)
  /-- the server gets request `k` -/
  | recv (k : Nat)
  /-- the sender of request `k` gets the answer `l` -/
  | back (k l : Nat)
  /-- the same for requests to the server that is about to join -/
  | joined (k l : Nat)
  /-- the same for requests to leave -/
  | left (k l : Nat)
  | client (i : Int) (data : Nat)
  /-- a client asks to add server `j` -/
  | add (i j : Int)
  /-- a client asks to remove server `j` -/
  | remove (i j : Int)
  | election (i : Int)
  | heartbeat (i k : Int)
  | apply (i : Int)

/-- A request to add a server. -/
def addReq (j : Int) : Req :=
  { type := .addReq, term := 0, src := 0, dst := 0, lastTerm := 0, lastIdx := 0, commitIdx := 0, entries := [⟨0, .srv ⟨j, 0⟩⟩] }

/-- A request to remove a server. -/
def rmReq (j : Int) : Req :=
  { type := .rmReq, term := 0, src := 0, dst := 0, lastTerm := 0, lastIdx := 0, commitIdx := 0, entries := [⟨0, .rmId j⟩] }

/-- The server and its input. -/
def CPlay.input (E : List Ev) : CPlay → Option (Int × Option Input × Option Nat)
  | .start i => some (i, none, none)
  | .kill i => some (i, some (.tick 0), some 0)
  | .recv k => match E[k]? with
    | some ⟨_, _, .send m⟩ => some (m.dst, some (.req m), none)
    | _ => none
  | .back k l => match E[k]?, E[l]? with
    | some ⟨i, _, .send q⟩, some ⟨j, c, .reply r⟩ =>
      if j = q.dst ∧ c = some (.req q) ∧ q.type.toPeer = true then some (i, some (.peerResp q.type r), none) else none
    | _, _ => none
  | .joined k l => match E[k]?, E[l]? with
    | some ⟨i, _, .send q⟩, some ⟨j, c, .reply r⟩ =>
      if j = q.dst ∧ c = some (.req q) ∧ q.type.toJoining = true then some (i, some (.extResp .joining q.type r), none) else none
    | _, _ => none
  | .left k l => match E[k]?, E[l]? with
    | some ⟨i, _, .send q⟩, some ⟨j, c, .reply r⟩ =>
      if j = q.dst ∧ c = some (.req q) ∧ q.type.toMember = true then some (i, some (.extResp (.member q.dst) q.type r), none) else none
    | _, _ => none
  | .client i data => some (i, some (.req (clientReq data)), none)
  | .add i j => some (i, some (.req (addReq j)), none)
  | .remove i j => some (i, some (.req (rmReq j)), none)
  | .election i => some (i, some .electionTimeout, none)
  | .heartbeat i k => some (i, some (.hbTimeout k), none)
  | .apply i => some (i, some .apply, none)

/-- One move. -/
def World.cmove (C : Cluster) (w : World) (p : CPlay) : Option World :=
  match p.input w.evs with
  | some (i, x, stop) =>
    if i ∈ C.ids then
      match (w.node i).go (C.setup i) x stop with
      | some (es, n) => some ⟨fun k => if k = i then n else w.node k, w.evs ++ es.map fun e => ⟨i, x, e⟩⟩
      | none => none
    else none
  | none => none

/-- A script. -/
def World.cplay (C : Cluster) (w : World) : List CPlay → Option World
  | [] => some w
  | p :: ps => match w.cmove C p with
    | some w' => w'.cplay C ps
    | none => none

theorem CPlay.deliver {E : List Ev} {p : CPlay} {i : Int} {x : Option Input} {k : Option Nat}
    (h : p.input E = some (i, x, k)) : ∀ y, x = some y → DeliverC E i y := by
  intro y hy
  subst hy
  cases p with
  | start => cases h
  | kill => cases h; exact .tick
  | recv k =>
    simp only [CPlay.input] at h
    split at h
    · rename_i he
      cases h
      exact .request (List.mem_of_getElem? he) rfl rfl
    · cases h
  | back k l =>
    simp only [CPlay.input] at h
    split at h
    · rename_i he1 he2
      split at h
      · rename_i hc
        cases h
        exact .answer (List.mem_of_getElem? he1) rfl rfl hc.2.2 (List.mem_of_getElem? he2) hc.1 hc.2.1 rfl
      · cases h
    · cases h
  | joined k l =>
    simp only [CPlay.input] at h
    split at h
    · rename_i he1 he2
      split at h
      · rename_i hc
        cases h
        exact .joining (List.mem_of_getElem? he1) rfl rfl hc.2.2 (List.mem_of_getElem? he2) hc.1 hc.2.1 rfl
      · cases h
    · cases h
  | left k l =>
    simp only [CPlay.input] at h
    split at h
    · rename_i he1 he2
      split at h
      · rename_i hc
        cases h
        exact .member (List.mem_of_getElem? he1) rfl rfl hc.2.2 (List.mem_of_getElem? he2) hc.1 hc.2.1 rfl
      · cases h
    · cases h
  | client i data => cases h; exact .client rfl (by intro e he; rw [List.mem_singleton.1 he]; rfl)
  | add i j => cases h; exact .add rfl rfl
  | remove i j => cases h; exact .remove rfl rfl
  | election i => cases h; exact .election
  | heartbeat i k => cases h; exact .heartbeat
  | apply i => cases h; exact .apply

theorem World.cmove_step {C : Cluster} {w w' : World} {p : CPlay} (h : w.cmove C p = some w') : C.CStep w w' := by
  unfold World.cmove at h
  split at h
  · rename_i i x stop hi
    split at h
    · rename_i hm
      split at h
      · rename_i es n hg
        cases h
        exact .mk hm (CPlay.deliver hi) (Node.go_step hg)
      · cases h
    · cases h
  · cases h

theorem World.cplay_run {C : Cluster} {w0 : World} : ∀ {ps : List CPlay} {w w' : World}, C.CRun w0 w →
    w.cplay C ps = some w' → C.CRun w0 w'
  | [], w, w', h, hp => by cases hp; exact h
  | p :: ps, w, w', h, hp => by
    unfold World.cplay at hp
    split at hp
    · rename_i w1 h1
      exact World.cplay_run (.step h (World.cmove_step h1)) hp
    · cases hp

/-- The state a script leads to. -/
def World.ccheck (C : Cluster) (ps : List CPlay) (P : World → Bool) : Bool :=
  match C.init.cplay C ps with
  | some w => P w
  | none => false

theorem World.cwitness {C : Cluster} (ps : List CPlay) (P : World → Bool) (h : World.ccheck C ps P = true) :
    ∃ w, C.CReach w ∧ P w = true := by
  unfold World.ccheck at h
  split at h
  · rename_i w hw
    exact ⟨w, World.cplay_run .refl hw, h⟩
  · cases h

end Cs.Raft
