import Verif.Cluster.Spec

/-!
# Clusters that take snapshots and compact their logs

As `Verif/Cluster/Spec.lean`, but servers may take snapshots of their state machines and shorten their logs. They keep at least
one of the entries a snapshot covers (`reserved_log_items` is not 0), and no server is sent so far behind that it needs a
snapshot of another one: snapshot requests may be sent, but do not arrive.
-/

namespace Cs.Raft
open Cs

/-- What is required of the configuration: as `Cluster.Ok`, and instead of switching snapshots off, at least one entry is kept. -/
structure Cluster.OkS (C : Cluster) : Prop where
  nodup : C.ids.Nodup
  named : -1 ∉ C.ids
  config : ∀ i, (C.config i).servers = C.servers
  kept : ∀ i, 1 ≤ (C.params i).reserved

/-- Inputs server `i` may get after the events `E`. -/
inductive DeliverS (E : List Ev) (i : Int) : Input → Prop
  /-- what a server may get without snapshots; snapshot requests do not arrive -/
  | plain {x : Input} : Deliver E i x → (∀ m, x = .req m → m.type ≠ .snpReq) → DeliverS E i x
  /-- its state machine has made the snapshot it was asked for, or could not -/
  | snapped {ev : Ev} {snp : Snap} {ok : Bool} : ev ∈ E → ev.node = i → ev.eff = .createSnp snp → DeliverS E i (.snapDone snp ok)

/-- The log still has the entry up to which the snapshot is taken. -/
def InLog (s : Srv) : Input → Prop
  | .snapDone snp true => (s.log.get? snp.lastIdx).isSome
  | _ => True

/-- One server takes a step. -/
inductive Cluster.SStep (C : Cluster) (w : World) : World → Prop
  | mk {i : Int} {x : Option Input} {es : List Eff} {n : Node} : i ∈ C.ids → (∀ y, x = some y → DeliverS w.evs i y) →
      (∀ s y, (w.node i).up = some s → x = some y → InLog s y) → (w.node i).Step (C.setup i) x es n →
      SStep C w ⟨fun k => if k = i then n else w.node k, w.evs ++ es.map fun e => ⟨i, x, e⟩⟩

/-- Executions from one state to a later one. -/
inductive Cluster.SRun (C : Cluster) (w : World) : World → Prop
  | refl : SRun C w w
  | step {w1 w2 : World} : SRun C w w1 → C.SStep w1 w2 → SRun C w w2

/-- States the cluster can get to. -/
def Cluster.SReach (C : Cluster) (w : World) : Prop := C.SRun C.init w

/-! ## Without looking at the log

The same, but what is required when a snapshot is finished is only that the server waits for it. -/

/-- The snapshots server `i` has asked its state machine for. -/
def snapsAsked (E : List Ev) (i : Int) : List Snap :=
  E.filterMap fun ev => match ev.eff with
    | .createSnp q => if ev.node = i then some q else none
    | _ => none

/-- Inputs server `i` may get after the events `E`. -/
inductive DeliverT (E : List Ev) (i : Int) : Input → Prop
  | plain {x : Input} : Deliver E i x → (∀ m, x = .req m → m.type ≠ .snpReq) → DeliverT E i x
  /-- its state machine has made the snapshot it was asked for last, or could not -/
  | snapped {snp : Snap} {ok : Bool} : (snapsAsked E i).getLast? = some snp → DeliverT E i (.snapDone snp ok)

/-- The server waits for a snapshot: it has asked for one since it was started, and was not told that it is finished. -/
def WaitsFor (s : Srv) : Input → Prop
  | .snapDone _ _ => s.snpInProgress = true
  | _ => True

/-- One server takes a step. -/
inductive Cluster.TStep (C : Cluster) (w : World) : World → Prop
  | mk {i : Int} {x : Option Input} {es : List Eff} {n : Node} : i ∈ C.ids → (∀ y, x = some y → DeliverT w.evs i y) →
      (∀ s y, (w.node i).up = some s → x = some y → WaitsFor s y) → (w.node i).Step (C.setup i) x es n →
      TStep C w ⟨fun k => if k = i then n else w.node k, w.evs ++ es.map fun e => ⟨i, x, e⟩⟩

/-- States the cluster can get to. -/
inductive Cluster.TReach (C : Cluster) : World → Prop
  | init : TReach C C.init
  | step {w w' : World} : TReach C w → C.TStep w w' → TReach C w'

/-- States the cluster can get to if all steps satisfy `P`, which looks at the server, its state before the step, the input and
the effects. -/
inductive Cluster.TOnly (C : Cluster) (P : Int → Srv → Input → List Eff → Prop) : World → Prop
  | init : TOnly C P C.init
  | step {w : World} {i : Int} {x : Option Input} {es : List Eff} {n : Node} : TOnly C P w → i ∈ C.ids →
      (∀ y, x = some y → DeliverT w.evs i y) → (∀ s y, (w.node i).up = some s → x = some y → WaitsFor s y) →
      (∀ s y, (w.node i).up = some s → x = some y → P i s y es) → (w.node i).Step (C.setup i) x es n →
      TOnly C P ⟨fun k => if k = i then n else w.node k, w.evs ++ es.map fun e => ⟨i, x, e⟩⟩

end Cs.Raft
