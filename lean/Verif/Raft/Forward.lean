import Verif.Raft.Model

/-!
# The calls of the application that go to the leader

`append_entries`, `add_srv`, `remove_srv` and `send_msg_to_leader`, raft_server.cxx 951-1051, and `peer::send_req`,
src/peer.cxx 21-27.

Whether an address gives a client is a parameter: `legal e` says that `create_client` (`Verif/Rpc/Endpoint.lean`) does not return
a null pointer for it. A client is represented by the address it was made for. The calls read `leader_` and `config_` without the
lock; here a call is one step.
-/

namespace Cs.Raft
open Cs

/-- A server with `rpc_clients_`: for each leader it has had to reach, the client, or nothing for the null pointer. -/
structure Front where
  srv : Srv
  clients : List (Int × Option Nat) := []

/-- What a call gives. -/
inductive Outcome where
  /-- the result is there at once -/
  | now (b : Bool)
  /-- the request has been handed to the client for this address -/
  | sent (address : Nat) (r : Req)
  deriving DecidableEq, Repr

/-- `cluster_config::get_server`, include/cluster_config.hxx 66-77. -/
def Config.get (c : Config) (id : Int) : Option SrvCfg := c.servers.find? (·.id == id)

/-- `create_client`. -/
def client (legal : Nat → Bool) (e : Nat) : Option Nat := if legal e then some e else none

/-- Lines 1028-1051 of `send_msg_to_leader`. -/
def useClient (c : Option Nat) (r : Req) : Outcome :=
  match c with
  | none => .now false
  | some e => .sent e r

/-- Lines 1007-1051 of `send_msg_to_leader`: the leader is another server. -/
def Front.toOther (legal : Nat → Bool) (f : Front) (r : Req) : Except Fault Outcome × Front :=
  match f.clients.find? (·.1 == f.srv.leader) with
  | some (_, c) => (.ok (useClient c r), f)
  | none =>
    match f.srv.config.get f.srv.leader with
    | none => (.ok (.now false), f)
    | some s => (.ok (useClient (client legal s.endpoint) r),
      { f with clients := f.clients ++ [(f.srv.leader, client legal s.endpoint)] })

/-- Lines 999-1004 of `send_msg_to_leader`: this server takes itself for the leader. -/
def Front.toSelf (f : Front) (r : Req) : Except Fault Outcome × Front :=
  match processReq r { f.srv with trace := [] } with
  | (.ok q, s') => (.ok (.now q.accepted), { f with srv := s' })
  | (.error e, s') => (.error e, { f with srv := s' })

/-- `send_msg_to_leader`, raft_server.cxx 989-1051. -/
def Front.toLeader (legal : Nat → Bool) (f : Front) (r : Req) : Except Fault Outcome × Front :=
  if f.srv.leader = -1 then (.ok (.now false), f)
  else if f.srv.leader = f.srv.id then f.toSelf r
  else f.toOther legal r

/-- The requests of lines 951-986. -/
def userReq (ty : MsgType) (es : List Entry) : Req :=
  { type := ty, term := 0, src := 0, dst := 0, lastTerm := 0, lastIdx := 0, commitIdx := 0, entries := es }

/-- `append_entries`, raft_server.cxx 960-976. -/
def Front.appendEntries (legal : Nat → Bool) (f : Front) (data : List Nat) : Except Fault Outcome × Front :=
  if data = [] then (.ok (.now false), f)
  else f.toLeader legal (userReq .clientReq (data.map fun d => ⟨0, .app d⟩))

/-- `add_srv`, raft_server.cxx 951-958. -/
def Front.addSrv (legal : Nat → Bool) (f : Front) (c : SrvCfg) : Except Fault Outcome × Front :=
  f.toLeader legal (userReq .addReq [⟨0, .srv c⟩])

/-- `remove_srv`, raft_server.cxx 978-986. -/
def Front.removeSrv (legal : Nat → Bool) (f : Front) (id : Int) : Except Fault Outcome × Front :=
  f.toLeader legal (userReq .rmReq [⟨0, .rmId id⟩])

/-- Lines 1034-1048: what the result of a call becomes when the client calls back, with an answer or an error. -/
def callBack (answer : Option Resp) : Option Bool := answer.map Resp.accepted

/-- What happens to a server: an input, or a call of the application. -/
inductive Doing where
  | input (x : Input)
  | append (data : List Nat)
  | add (c : SrvCfg)
  | remove (id : Int)
  deriving DecidableEq, Repr

/-- The server afterwards. -/
def Front.after (legal : Nat → Bool) (f : Front) : Doing → Front
  | .input x => { f with srv := (x.run { f.srv with trace := [] }).2 }
  | .append data => (f.appendEntries legal data).2
  | .add c => (f.addSrv legal c).2
  | .remove id => (f.removeSrv legal id).2

/-- `peer::send_req`, src/peer.cxx 21-27: the request goes through `rpc_`, the client made when the peer was (include/peer.hxx
32), which is a null pointer if the address is not legal. -/
def Peer.sendReq (legal : Nat → Bool) (p : Peer) (r : Req) : Except Fault Outcome :=
  match client legal p.cfg.endpoint with
  | some e => .ok (.sent e r)
  | none => .error .ub

end Cs.Raft
