import Verif.Raft.Model

/-!
# Histories of one server

A node is a disk and, while it runs, a server. `Hist` are its histories: inputs in any order, crashes after any prefix of
the effects of an input, restarts from the disk.
-/

namespace Cs.Raft
open Cs

/-- What does not change about a server. -/
structure Setup where
  id : Int
  params : Params := {}
  env : Env := Env.plain

/-- A server and its disk. -/
structure Node where
  disk : Disk
  up : Option Srv

/-- One step, with the input and the effects. -/
inductive Node.Step (c : Setup) : Node → Option Input → List Eff → Node → Prop
  /-- an input is handled -/
  | run {d : Disk} {s s' : Srv} {x : Input} :
      x.run { s with trace := [] } = (.ok ⟨⟩, s') → Step c ⟨d, some s⟩ (some x) s'.trace ⟨d.afterAll s'.trace, some s'⟩
  /-- a C++ exception leaves the handler and the server goes on -/
  | survive {d : Disk} {s s' : Srv} {x : Input} :
      x.run { s with trace := [] } = (.error .thrown, s') →
      Step c ⟨d, some s⟩ (some x) s'.trace ⟨d.afterAll s'.trace, some s'⟩
  /-- the process ends after a prefix of the effects, by itself or by a crash -/
  | crash {d : Disk} {s : Srv} {x : Input} {es : List Eff} :
      es <+: (x.run { s with trace := [] }).2.trace → Step c ⟨d, some s⟩ (some x) es ⟨d.afterAll es, none⟩
  /-- the server is started -/
  | boot {d : Disk} : Step c ⟨d, none⟩ none [] ⟨d, some (boot c.id c.params c.env d)⟩

/-- Histories: the inputs that were handled and the effects, in order. -/
inductive Hist (c : Setup) (n : Node) : List Input → List Eff → Node → Prop
  | nil : Hist c n [] [] n
  | step {n1 n2 : Node} {xs : List Input} {fx es : List Eff} {x : Option Input} :
      Hist c n xs fx n1 → n1.Step c x es n2 → Hist c n (xs ++ x.toList) (fx ++ es) n2

/-- A server that has never run: empty log, term 0, no vote. -/
def Node.fresh (cfg : Config) : Node := ⟨{ config := cfg }, none⟩

/-- A vote that others learn of: term and candidate. A positive answer to a vote request is one, and a vote request is the
announcement of the vote for oneself. -/
def Eff.vote? : Eff → Option (Nat × Int)
  | .send r => if r.type = .voteReq then some (r.term, r.src) else none
  | .reply r => if r.type = .voteResp ∧ r.accepted = true then some (r.term, r.dst) else none
  | _ => none

/-- Invitations to join a cluster. -/
def Input.isJoin : Input → Bool
  | .req r => r.type == .joinReq
  | _ => false

/-- Vote requests name a server; -1 stands for "nobody" in the code. -/
def Input.named : Input → Prop
  | .req r => r.type = .voteReq → r.src ≠ -1
  | _ => True

end Cs.Raft
