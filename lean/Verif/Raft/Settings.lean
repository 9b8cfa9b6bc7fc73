import Verif.Raft.Types

/-!
# Settings

`raft_params`: how it is filled, and what the server computes from it in 32-bit and 64-bit integers.
-/

namespace Cs.Raft
open Cs

/-- The members of `raft_params` as they are, include/raft_params.hxx 195-206; the values of the constructor (29-43). -/
structure Settings where
  electionUpper : Int := 300
  electionLower : Int := 150
  hbInterval : Int := 75
  rpcBackoff : Int := 25
  logSyncBatch : Int := 1000
  logSyncGap : Int := 10
  snpDistance : Int := 0
  snpBlock : Int := 0
  maxAppend : Int := 100
  reserved : Int := 10000
  prevote : Bool := false
  defensive : Bool := true
  deriving DecidableEq, Repr

/-- The calls that fill it, include/raft_params.hxx 47-187. The arguments are `int32`. -/
inductive Setter where
  | electionUpper (v : Int)
  | electionLower (v : Int)
  | hbInterval (v : Int)
  | rpcBackoff (v : Int)
  | maxAppend (v : Int)
  | logSyncBatch (v : Int)
  | logSyncGap (v : Int)
  | snpDistance (v : Int)
  | snpBlock (v : Int)
  | reserved (v : Int)
  | prevote (b : Bool)
  | defensive (b : Bool)
  deriving DecidableEq, Repr

/-- One call: the value is stored, whatever it is (include/raft_params.hxx 53-187). -/
def Setter.set (s : Settings) : Setter → Settings
  | .electionUpper v => { s with electionUpper := v }
  | .electionLower v => { s with electionLower := v }
  | .hbInterval v => { s with hbInterval := v }
  | .rpcBackoff v => { s with rpcBackoff := v }
  | .maxAppend v => { s with maxAppend := v }
  | .logSyncBatch v => { s with logSyncBatch := v }
  | .logSyncGap v => { s with logSyncGap := v }
  | .snpDistance v => { s with snpDistance := v }
  | .snpBlock v => { s with snpBlock := v }
  | .reserved v => { s with reserved := v }
  | .prevote b => { s with prevote := b }
  | .defensive b => { s with defensive := b }

/-- A chain of calls on a new object. -/
def Settings.build (cs : List Setter) : Settings := cs.foldl Setter.set {}

/-- `(ulong)x` for an `int32`, and the conversion of an `int32` operand next to a `ulong` one. -/
def u64OfInt (x : Int) : Nat := (BitVec.ofInt 64 x).toNat

/-- The value of an `int` expression, `none` if it overflows (undefined behaviour). -/
def int32? (x : Int) : Option Int := if -2 ^ 31 ≤ x ∧ x < 2 ^ 31 then some x else none

/-- The settings the way the model of the server uses them (`Raft/Model.lean`): the snapshot distance (raft_server.cxx 543, 554) and the
number of reserved entries (629-631) are converted to `ulong`, and so is the number of entries (679). -/
def Settings.params (s : Settings) : Params :=
  { electionUpper := s.electionUpper, electionLower := s.electionLower, hbInterval := s.hbInterval, rpcBackoff := s.rpcBackoff,
    logSyncBatch := s.logSyncBatch, logSyncGap := s.logSyncGap, snpDistance := u64OfInt s.snpDistance, snpBlock := s.snpBlock,
    maxAppend := u64OfInt s.maxAppend, reserved := u64OfInt s.reserved, prevote := s.prevote, defensive := s.defensive }

/-- `end_idx` of `create_append_entries_req`, raft_server.cxx 679, with the addition modulo 2^64: the entries from `last + 1` up to this
index (without it) go into the request. -/
def Settings.endIdx (s : Settings) (next last : Nat) : Nat := min next ((last + 1 + u64OfInt s.maxAppend) % 2 ^ 64)

/-- What a call of a `std::uniform_int_distribution` gives. -/
inductive Draw where
  | value (v : Int)
  | undefined
  deriving DecidableEq, Repr

/-- `std::uniform_int_distribution<int32>(a, b)`: a value between `a` and `b`; undefined if `b < a` (the standard requires
`a ≤ b`, already of the constructor, raft_server.cxx 90-91; here the draw is what is undefined). -/
inductive Draws (a b : Int) : Draw → Prop
  | value {v : Int} : a ≤ v → v ≤ b → Draws a b (.value v)
  | outside {d : Draw} : b < a → Draws a b d

/-- The time for which the election timer is set, in milliseconds: `rand_timeout_`, raft_server.cxx 88-92, called
by `restart_election_timer` (416). -/
def Settings.Timeout (s : Settings) (d : Draw) : Prop := Draws s.electionLower s.electionUpper d

/-- `election_timeout_upper_bound_ * 2`, raft_server.cxx 1058 and 1071 (`is_leader`). -/
def Settings.silence (s : Settings) : Option Int := int32? (s.electionUpper * 2)

/-- `raft_params::max_hb_interval`, include/raft_params.hxx 189-192. -/
def Settings.maxHb (s : Settings) : Option Int := (int32? (s.electionLower - s.hbInterval.tdiv 2)).map fun x => max s.hbInterval x

/-- `peer::slow_down_hb`, include/peer.hxx 161-164, for a peer whose interval is `cur`. -/
def Settings.slowDown (s : Settings) (cur : Int) : Option Int :=
  match s.maxHb, int32? (cur + s.rpcBackoff) with
  | some m, some x => some (min m x)
  | _, _ => none

end Cs.Raft
