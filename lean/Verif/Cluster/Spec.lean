import Verif.Raft.Spec

/-!
# Clusters

Several servers, each with its disk, and a network that may lose, delay, repeat and reorder messages. Servers crash at any
point and are started again. The members of the cluster do not change and no snapshots are taken: nobody asks to add or
remove a server, and the snapshot distance is 0.

This is the specification the properties of the whole cluster refer to. It says what can happen to the servers; what they
do is `Verif/Raft/Model.lean`.
-/

namespace Cs.Raft
open Cs

/-- Something a server did, and the input during which it did it. -/
structure Ev where
  node : Int
  cause : Option Input
  eff : Eff
  deriving DecidableEq

/-- The members of a cluster, and how each is configured. `config i` is the configuration file server `i` starts with. -/
structure Cluster where
  servers : List SrvCfg
  config : Int → Config
  params : Int → Params := fun _ => {}
  env : Int → Env := fun _ => Env.plain

/-- The ids of the members. -/
def Cluster.ids (C : Cluster) : List Int := C.servers.map SrvCfg.id

/-- What is required of the configuration: ids are different, none is -1 (which stands for "nobody" in the code), all
servers start with the same members, and snapshots are switched off. -/
structure Cluster.Ok (C : Cluster) : Prop where
  nodup : C.ids.Nodup
  named : -1 ∉ C.ids
  config : ∀ i, (C.config i).servers = C.servers
  noSnap : ∀ i, (C.params i).snpDistance = 0

/-- The state of the whole cluster, and everything that was done so far. -/
structure World where
  node : Int → Node
  evs : List Ev

/-- No server has run. -/
def Cluster.init (C : Cluster) : World := ⟨fun i => Node.fresh (C.config i), []⟩

/-- Inputs server `i` may get after the events `E`. -/
inductive Deliver (E : List Ev) (i : Int) : Input → Prop
  /-- a request another server has sent to it -/
  | request {ev : Ev} {m : Req} : ev ∈ E → ev.eff = .send m → m.dst = i → Deliver E i (.req m)
  /-- a request of a client -/
  | client {m : Req} : m.type = .clientReq → (∀ e ∈ m.entries, e.isApp = true) → Deliver E i (.req m)
  /-- the answer to a request it has sent -/
  | answer {e1 e2 : Ev} {q : Req} {r : Resp} : e1 ∈ E → e1.node = i → e1.eff = .send q → q.type ≠ .prevoteReq →
      e2 ∈ E → e2.node = q.dst → e2.cause = some (.req q) → e2.eff = .reply r → Deliver E i (.peerResp q.type r)
  /-- the answer to a prevote request it has sent -/
  | prevoted {e1 e2 : Ev} {q : Req} {r : Resp} : e1 ∈ E → e1.node = i → e1.eff = .send q → q.type = .prevoteReq →
      e2 ∈ E → e2.node = q.dst → e2.cause = some (.req q) → e2.eff = .reply r →
      Deliver E i (.extResp (.member q.dst) q.type r)
  /-- a request it has sent failed -/
  | failed {e1 : Ev} {q : Req} : e1 ∈ E → e1.node = i → e1.eff = .send q → q.type ≠ .prevoteReq → Deliver E i (.peerErr q)
  | prefailed {e1 : Ev} {q : Req} : e1 ∈ E → e1.node = i → e1.eff = .send q → q.type = .prevoteReq →
      Deliver E i (.extErr (.member q.dst) q)
  /-- timers, the commit thread, the application, time -/
  | election : Deliver E i .electionTimeout
  | heartbeat {k : Int} : Deliver E i (.hbTimeout k)
  | apply : Deliver E i .apply
  | replicate {d : Nat} : Deliver E i (.replicate d)
  | tick {n : Nat} : Deliver E i (.tick n)

/-- How server `i` is set up. -/
def Cluster.setup (C : Cluster) (i : Int) : Setup := ⟨i, C.params i, C.env i⟩

/-- One server takes a step. -/
inductive Cluster.Step (C : Cluster) (w : World) : World → Prop
  | mk {i : Int} {x : Option Input} {es : List Eff} {n : Node} : i ∈ C.ids → (∀ y, x = some y → Deliver w.evs i y) →
      (w.node i).Step (C.setup i) x es n →
      Step C w ⟨fun k => if k = i then n else w.node k, w.evs ++ es.map fun e => ⟨i, x, e⟩⟩

/-- Executions from one state to a later one. -/
inductive Cluster.Run (C : Cluster) (w : World) : World → Prop
  | refl : Run C w w
  | step {w1 w2 : World} : Run C w w1 → C.Step w1 w2 → Run C w w2

/-- States the cluster can get to. -/
def Cluster.Reach (C : Cluster) (w : World) : Prop := C.Run C.init w

/-- More than half of the members. -/
def Cluster.Majority (C : Cluster) (V : List Int) : Prop := V.Nodup ∧ (∀ v ∈ V, v ∈ C.ids) ∧ C.ids.length < 2 * V.length

/-- Server `i` is up and is leader of term `t`. -/
def World.Leads (w : World) (i : Int) (t : Nat) : Prop := ∃ s, (w.node i).up = some s ∧ s.role = .leader ∧ s.term = t

/-- The log of server `i` as it is on its disk. -/
def World.log (w : World) (i : Int) : Log := (w.node i).disk.log

/-- Server `v` has given a positive answer of term `t` that says that it has the entries up to index `n`. -/
def Confirmed (E : List Ev) (v : Int) (t n : Nat) : Prop :=
  ∃ ev ∈ E, ev.node = v ∧ ∃ r, ev.eff = .reply r ∧ r.type = .appendResp ∧ r.accepted = true ∧ r.term = t ∧ n < r.nextIdx

/-- The disk of server `i` after the events `E`. -/
def Cluster.diskAt (C : Cluster) (E : List Ev) (i : Int) : Disk :=
  (Node.fresh (C.config i)).disk.afterAll ((E.filter fun ev => decide (ev.node = i)).map Ev.eff)

/-- Server `i` is leader of its term, its entry `n` is of this term, and a majority (itself included) has confirmed in this
term that it has the entries up to `n`. This is what allows a leader to raise its commit index to `n`. -/
def Cluster.Backed (C : Cluster) (E : List Ev) (i : Int) (n : Nat) : Prop :=
  (∃ ev ∈ E, ev.node = i ∧ ev.eff = .lead (C.diskAt E i).term) ∧
  ((C.diskAt E i).log.get? n).map Entry.term = some (C.diskAt E i).term ∧
  ∃ V, C.Majority V ∧ ∀ v ∈ V, v = i ∨ Confirmed E v (C.diskAt E i).term n

/-- It happened while an append request was handled. -/
def Ev.Following (ev : Ev) (m : Req) : Prop := ev.cause = some (.req m) ∧ m.type = .appendReq

/-- Whenever a server raised its commit index other than by an append request, it was allowed to. -/
def Cluster.CarefulLeaders (C : Cluster) (E : List Ev) : Prop :=
  ∀ E1 ev E2 n, E = E1 ++ ev :: E2 → ev.eff = .advance n → (∀ m, ¬ ev.Following m) → C.Backed E1 ev.node n

/-- Whenever a server raised its commit index other than by an append request, the entry there was of its own term. -/
def Cluster.OwnEntries (C : Cluster) (E : List Ev) : Prop :=
  ∀ E1 ev E2 n, E = E1 ++ ev :: E2 → ev.eff = .advance n → (∀ m, ¬ ev.Following m) →
    ((C.diskAt E1 ev.node).log.get? n).map Entry.term = some (C.diskAt E1 ev.node).term

/-- Whenever a server raised its commit index by an append request, it was not beyond the entries of the request. -/
def CarefulFollowers (E : List Ev) : Prop :=
  ∀ ev ∈ E, ∀ n m, ev.eff = .advance n → ev.Following m → n ≤ m.lastIdx + m.entries.length

/-- Nothing unusual reaches server `i` in state `s`: the election timer of a leader does not expire, heartbeat timers are those
of other members, and a positive answer that reaches a leader is from its own term. -/
def Cluster.Usual (C : Cluster) (i : Int) (s : Srv) : Input → Prop
  | .electionTimeout => s.role ≠ .leader
  | .hbTimeout k => k ∈ C.ids ∧ k ≠ i
  | .peerResp _ r => s.role = .leader → r.accepted = true → r.term = s.term
  | _ => True

/-- States the cluster can get to if nothing unusual reaches a server. Messages may still be lost, late, repeated and
reordered, and servers may crash. -/
inductive Cluster.Calm (C : Cluster) : World → Prop
  | init : Calm C C.init
  | step {w : World} {i : Int} {x : Option Input} {es : List Eff} {n : Node} : Calm C w → i ∈ C.ids →
      (∀ y, x = some y → Deliver w.evs i y) → (∀ s y, (w.node i).up = some s → x = some y → C.Usual i s y) →
      (w.node i).Step (C.setup i) x es n →
      Calm C ⟨fun k => if k = i then n else w.node k, w.evs ++ es.map fun e => ⟨i, x, e⟩⟩

/-- States the cluster can get to if all steps satisfy `P`, which looks at the server, its state before the step, the input and
the effects. -/
inductive Cluster.Only (C : Cluster) (P : Int → Srv → Input → List Eff → Prop) : World → Prop
  | init : Only C P C.init
  | step {w : World} {i : Int} {x : Option Input} {es : List Eff} {n : Node} : Only C P w → i ∈ C.ids →
      (∀ y, x = some y → Deliver w.evs i y) → (∀ s y, (w.node i).up = some s → x = some y → P i s y es) →
      (w.node i).Step (C.setup i) x es n →
      Only C P ⟨fun k => if k = i then n else w.node k, w.evs ++ es.map fun e => ⟨i, x, e⟩⟩

/-- Positive answers to append requests reach the server while it still is the leader that sent the request. -/
def Timely (s : Srv) : Input → Prop
  | .peerResp _ r => r.type = .appendResp → r.accepted = true → s.role = .leader ∧ r.term = s.term
  | _ => True

/-- A server that is elected has no record of what the others have. -/
def Fresh (s : Srv) (es : List Eff) : Prop := (∃ t, .lead t ∈ es) → ∀ p ∈ s.peers, p.matched = 0

end Cs.Raft
