import Verif.Cluster.Play

/-!
# Clusters that take snapshots

As in `Verif/Cluster/Spec.lean`, but with any snapshot distance: servers take snapshots, cut their logs, and send snapshots to
servers that lag behind. The members still do not change.
-/

namespace Cs.Raft
open Cs

/-- What is required of the configuration: ids are different, none is -1, and all servers start with the same members. -/
structure Cluster.Fine (C : Cluster) : Prop where
  nodup : C.ids.Nodup
  named : -1 ∉ C.ids
  config : ∀ i, (C.config i).servers = C.servers

/-- Inputs server `i` may get after the events `E`. -/
inductive DeliverW (E : List Ev) (i : Int) : Input → Prop
  | plain {x : Input} : Deliver E i x → DeliverW E i x
  /-- the state machine has finished, or given up, a snapshot it was asked for (possibly by a process that has ended since: more
  than can happen) -/
  | snapped {ev : Ev} {s : Snap} {ok : Bool} : ev ∈ E → ev.node = i → ev.eff = .createSnp s → DeliverW E i (.snapDone s ok)

/-- One server takes a step. -/
inductive Cluster.WStep (C : Cluster) (w : World) : World → Prop
  | mk {i : Int} {x : Option Input} {es : List Eff} {n : Node} : i ∈ C.ids → (∀ y, x = some y → DeliverW w.evs i y) →
      (w.node i).Step (C.setup i) x es n →
      WStep C w ⟨fun k => if k = i then n else w.node k, w.evs ++ es.map fun e => ⟨i, x, e⟩⟩

/-- Executions from one state to a later one. -/
inductive Cluster.WRun (C : Cluster) (w : World) : World → Prop
  | refl : WRun C w w
  | step {w1 w2 : World} : WRun C w w1 → C.WStep w1 w2 → WRun C w w2

/-- States the cluster can get to. -/
def Cluster.WReach (C : Cluster) (w : World) : Prop := C.WRun C.init w

/-- Executions without snapshots are among them. -/
theorem Cluster.Run.wide {C : Cluster} {w w' : World} (h : C.Run w w') : C.WRun w w' := by
  induction h with
  | refl => exact .refl
  | step _ hs ih =>
    cases hs with
    | mk h1 h2 h3 => exact .step ih (.mk h1 (fun y hy => .plain (h2 y hy)) h3)

/-! ## Scripts -/

/-- A move of a script. -/
inductive WPlay where
  | plain (p : Play)
  /-- the snapshot asked for by event `k` is finished -/
  | snapped (k : Nat) (ok : Bool)

/-- The server and its input. -/
def WPlay.input (E : List Ev) : WPlay → Option (Int × Option Input × Option Nat)
  | .plain p => p.input E
  | .snapped k ok => match E[k]? with
    | some ⟨i, _, .createSnp s⟩ => some (i, some (.snapDone s ok), none)
    | _ => none

/-- One move. -/
def World.wmove (C : Cluster) (w : World) (p : WPlay) : Option World :=
  match p.input w.evs with
  | some (i, x, stop) =>
    if i ∈ C.ids then
      match (w.node i).go (C.setup i) x stop with
      | some (es, n) => some ⟨fun k => if k = i then n else w.node k, w.evs ++ es.map fun e => ⟨i, x, e⟩⟩
      | none => none
    else none
  | none => none

/-- A script. -/
def World.wplay (C : Cluster) (w : World) : List WPlay → Option World
  | [] => some w
  | p :: ps => match w.wmove C p with
    | some w' => w'.wplay C ps
    | none => none

theorem WPlay.deliver {E : List Ev} {p : WPlay} {i : Int} {x : Option Input} {k : Option Nat}
    (h : p.input E = some (i, x, k)) : ∀ y, x = some y → DeliverW E i y := by
  cases p with
  | plain p => exact fun y hy => .plain (Play.deliver h y hy)
  | snapped k ok =>
    intro y hy
    subst hy
    simp only [WPlay.input] at h
    split at h
    · rename_i he
      cases h
      exact .snapped (List.mem_of_getElem? he) rfl rfl
    · cases h

theorem World.wmove_step {C : Cluster} {w w' : World} {p : WPlay} (h : w.wmove C p = some w') : C.WStep w w' := by
  unfold World.wmove at h
  split at h
  · rename_i i x stop hi
    split at h
    · rename_i hm
      split at h
      · rename_i es n hg
        cases h
        exact .mk hm (WPlay.deliver hi) (Node.go_step hg)
      · cases h
    · cases h
  · cases h

theorem World.wplay_run {C : Cluster} {w0 : World} : ∀ {ps : List WPlay} {w w' : World}, C.WRun w0 w →
    w.wplay C ps = some w' → C.WRun w0 w'
  | [], w, w', h, hp => by cases hp; exact h
  | p :: ps, w, w', h, hp => by
    unfold World.wplay at hp
    split at hp
    · rename_i w1 h1
      exact World.wplay_run (.step h (World.wmove_step h1)) hp
    · cases hp

/-- Two states, one after the other. -/
def World.wcheck2 (C : Cluster) (ps qs : List WPlay) (P : World → World → Bool) : Bool :=
  match C.init.wplay C ps with
  | some w => match w.wplay C qs with
    | some w' => P w w'
    | none => false
  | none => false

theorem World.wwitness2 {C : Cluster} (ps qs : List WPlay) (P : World → World → Bool) (h : World.wcheck2 C ps qs P = true) :
    ∃ w w', C.WReach w ∧ C.WRun w w' ∧ P w w' = true := by
  unfold World.wcheck2 at h
  split at h
  · rename_i w hw
    split at h
    · rename_i w' hw'
      exact ⟨w, w', World.wplay_run .refl hw, World.wplay_run .refl hw', h⟩
    · cases h
  · cases h

theorem Cluster.WRun.trans {C : Cluster} {a b c : World} (h1 : C.WRun a b) (h2 : C.WRun b c) : C.WRun a c := by
  induction h2 with
  | refl => exact h1
  | step _ hs ih => exact .step ih hs

end Cs.Raft
