import Verif.Base

/-!
# Data of the Raft server model

`include/raft_server.hxx`, `include/peer.hxx`, `include/srv_state.hxx`, messages, and the interfaces of the log store and
the state machine. Serialized payloads appear here in decoded form (their encodings are the subject of `Verif/Codec` and
`Verif/Rpc`); `ulong` values are natural numbers, subtraction that can wrap is `subU64`. Additions are assumed not to
reach 2^64.
-/

namespace Cs.Raft
open Cs

/-- `srv_config`, include/srv_config.hxx 27-57. The endpoint string is an opaque number. -/
structure SrvCfg where
  id : Int
  endpoint : Nat := 0
  deriving DecidableEq, Repr

/-- `cluster_config`, include/cluster_config.hxx 25-89. -/
structure Config where
  logIdx : Nat
  prevLogIdx : Nat
  servers : List SrvCfg
  deriving DecidableEq, Repr

/-- `cluster_config::get_server(id) != nilptr`, include/cluster_config.hxx 66-77. -/
def Config.has (c : Config) (id : Int) : Bool := c.servers.any (·.id == id)

/-- Value type and payload of a log entry, include/log_val_type.hxx. `rmId` is the four byte payload of a remove request
(also of type `cluster_server`). The content of a log pack and of a snapshot block is carried beside the entry, in the
fields `pack` and `sync` of the request. -/
inductive Val where
  | app (data : Nat)
  | conf (c : Config)
  | srv (c : SrvCfg)
  | rmId (id : Int)
  | logPack
  | snpSync
  deriving DecidableEq, Repr

/-- `log_entry`, include/log_entry.hxx 53-110, without the cookie. -/
structure Entry where
  term : Nat
  val : Val
  deriving DecidableEq, Repr

/-- `val_type == conf`. -/
def Entry.isConf (e : Entry) : Bool := match e.val with | .conf _ => true | _ => false
/-- `val_type == app_log`. -/
def Entry.isApp (e : Entry) : Bool := match e.val with | .app _ => true | _ => false

/-- `snapshot`, include/snapshot.hxx 25-70. -/
structure Snap where
  lastIdx : Nat
  lastTerm : Nat
  config : Config
  size : Nat
  deriving DecidableEq, Repr

/-- `snapshot_sync_req`, include/snapshot_sync_req.hxx 24-65. -/
structure SnpSync where
  snap : Snap
  offset : Nat
  data : List Byte
  done : Bool
  deriving DecidableEq, Repr

/-- `msg_type`, include/msg_type.hxx 22-43. -/
inductive MsgType where
  | voteReq | voteResp | appendReq | appendResp | clientReq
  | addReq | addResp | rmReq | rmResp | syncReq | syncResp
  | joinReq | joinResp | leaveReq | leaveResp | snpReq | snpResp | prevoteReq | prevoteResp
  deriving DecidableEq, Repr

/-- `req_msg`, include/req_msg.hxx 25-75. -/
structure Req where
  type : MsgType
  term : Nat
  src : Int
  dst : Int
  lastTerm : Nat
  lastIdx : Nat
  commitIdx : Nat
  entries : List Entry := []
  /-- content of the entry of type `log_pack` -/
  pack : List Entry := []
  /-- content of the entry of type `snp_sync_req` -/
  sync : Option SnpSync := none
  deriving DecidableEq, Repr

/-- `resp_msg`, include/resp_msg.hxx 24-55. -/
structure Resp where
  type : MsgType
  term : Nat
  src : Int
  dst : Int
  nextIdx : Nat := 0
  accepted : Bool := false
  deriving DecidableEq, Repr

/-- `resp_msg::accept`, include/resp_msg.hxx 47-51. -/
def Resp.accept (r : Resp) (next : Nat) : Resp := { r with nextIdx := next, accepted := true }

/-! ## Log store

The log store is the ideal log of its interface (include/log_store.hxx); `Verif/LogStore` relates `fs_log_store` to it. -/

/-- A log: index of the first entry, and the entries. -/
structure Log where
  start : Nat
  ents : List Entry
  deriving DecidableEq, Repr

/-- `next_slot`. -/
def Log.next (l : Log) : Nat := l.start + l.ents.length
/-- `entry_at`; `none` is the null pointer. -/
def Log.get? (l : Log) (i : Nat) : Option Entry := if i < l.start then none else l.ents[i - l.start]?
/-- Term of `last_entry`: that of the dummy entry is 0. -/
def Log.lastTerm (l : Log) : Nat := match l.ents.getLast? with | some e => e.term | none => 0
/-- `log_entries(i, j)`. -/
def Log.range (l : Log) (i j : Nat) : List Entry := (l.ents.drop (i - l.start)).take (j - i)
/-- `append`. -/
def Log.append (l : Log) (e : Entry) : Log := { l with ents := l.ents ++ [e] }
/-- `write_at(i, e)` and `apply_pack(i, es)`: everything from index `i` on is replaced. -/
def Log.replaceFrom (l : Log) (i : Nat) (es : List Entry) : Log := { l with ents := l.ents.take (i - l.start) ++ es }
/-- `compact(i)` for `i` not below the first index (`fs_log_store` throws otherwise, src/fs_log_store.cxx 646-649). -/
def Log.compact (l : Log) (i : Nat) : Log := ⟨i + 1, l.ents.drop (i + 1 - l.start)⟩

/-! ## Peers -/

/-- `peer`, include/peer.hxx 26-197: replication progress and heartbeat state of another server. `lastResp` is the time in
milliseconds since the epoch (0 for the default constructed time point), `hbArmed` says that the heartbeat task is
scheduled. -/
structure Peer where
  cfg : SrvCfg
  nextIdx : Nat := 0
  matched : Nat := 0
  lastResp : Nat := 0
  busy : Bool := false
  pending : Bool := false
  hbEnabled : Bool := false
  hbArmed : Bool := false
  hbInterval : Int
  snpCtx : Option (Snap × Nat) := none
  deriving DecidableEq, Repr

/-- `peer::get_id`. -/
def Peer.id (p : Peer) : Int := p.cfg.id

/-- `raft_params`, include/raft_params.hxx. `maxAppend`, `snpDistance`, `reserved` are not negative. -/
structure Params where
  electionUpper : Int := 300
  electionLower : Int := 150
  hbInterval : Int := 75
  rpcBackoff : Int := 25
  logSyncBatch : Int := 1000
  logSyncGap : Int := 10
  snpDistance : Nat := 0
  snpBlock : Int := 0
  maxAppend : Nat := 100
  reserved : Nat := 10000
  prevote : Bool := false
  defensive : Bool := true
  deriving DecidableEq, Repr

/-- `raft_params::max_hb_interval`, include/raft_params.hxx 189-192. -/
def Params.maxHb (p : Params) : Int := max p.hbInterval (p.electionLower - p.hbInterval.tdiv 2)

/-- `srv_role`, include/srv_role.hxx. -/
inductive Role where
  | follower | candidate | leader
  deriving DecidableEq, Repr

/-- `raft_event`, include/events.hxx 24-29. -/
inductive Event where
  | becomeLeader | becomeFollower | logsCatchUp
  deriving DecidableEq, Repr

/-- Everything a server does that can be observed from outside, or survives a crash. -/
inductive Eff where
  /-- `state_mgr_->save_state` with term and vote -/
  | saveState (term : Nat) (vote : Int)
  /-- `state_mgr_->save_config` -/
  | saveConfig (c : Config)
  /-- `log_store_->append` -/
  | append (e : Entry)
  /-- `log_store_->write_at` -/
  | writeAt (i : Nat) (e : Entry)
  /-- `log_store_->apply_pack` -/
  | applyPack (i : Nat) (es : List Entry)
  /-- `log_store_->compact` -/
  | compact (i : Nat)
  /-- a request is handed to the connection of its destination -/
  | send (r : Req)
  /-- the answer to a request is handed to the connection it came from -/
  | reply (r : Resp)
  /-- `state_machine_->pre_commit` -/
  | preCommit (i : Nat) (e : Entry)
  /-- `state_machine_->rollback` -/
  | rollback (i : Nat) (e : Entry)
  /-- `state_machine_->commit` -/
  | commit (i : Nat) (e : Entry)
  /-- `state_machine_->save_snapshot_data` -/
  | saveSnpData (s : Snap) (offset : Nat) (data : List Byte)
  /-- `state_machine_->apply_snapshot` -/
  | applySnp (s : Snap)
  /-- `state_machine_->create_snapshot` -/
  | createSnp (s : Snap)
  /-- not an effect of the code: the state machine has finished a snapshot and answers `last_snapshot` with it -/
  | madeSnp (s : Snap)
  /-- `event_listener_->on_event` -/
  | event (e : Event)
  /-- not an effect of the code: marks the assignment `role_ = srv_role::leader` and the term at that point -/
  | lead (term : Nat)
  /-- not an effect of the code: marks the assignment `quick_commit_idx_ = target_idx` in `commit` -/
  | advance (i : Nat)
  /-- `state_mgr_->system_exit` -/
  | exit (code : Int)
  deriving DecidableEq, Repr

/-- What the state machine and the log store of the application answer. -/
structure Env where
  /-- `read_snapshot_data(s, offset, buffer of n bytes)`: what the buffer holds when it returns; bytes the state machine has not
  written are those that happened to be in the memory -/
  readSnp : Snap → Nat → Nat → List Byte
  /-- `read_snapshot_data(s, offset, buffer of n bytes)`: the `int` it returns -/
  readRet : Snap → Nat → Nat → Int
  /-- `read_snapshot_data(s, offset, buffer of n bytes)`: the position of the buffer when it returns, between 0 and `n`; the `put`
  functions of the buffer move it -/
  readPos : Snap → Nat → Nat → Nat
  /-- `apply_snapshot` -/
  applySnp : Snap → Bool
  /-- `log_store::compact` succeeds -/
  compactOk : Nat → Bool
  /-- the size of a snapshot made by the state machine, as `last_snapshot` tells it -/
  snpSize : Snap → Nat

/-- A state machine that accepts everything, whose snapshots are 10 bytes long. -/
def Env.plain : Env := ⟨fun _ _ n => List.replicate n 0, fun _ _ n => n, fun _ _ _ => 0, fun _ => true, fun _ => true, fun _ => 10⟩

/-- `raft_server`, include/raft_server.hxx 115-154. `armed` says that the election timer is scheduled, `now` is the wall
clock in milliseconds, `elapsed` the static variable of `is_leader` (servers in one process share it; here each server has
its own), `smSnap` the answer of
`state_machine_->last_snapshot()`. `trace` lists the effects so far, in order. -/
structure Srv where
  id : Int
  leader : Int := -1
  votesGranted : Nat := 0
  quickCommit : Nat := 0
  smCommit : Nat := 0
  electionCompleted : Bool := true
  configChanging : Bool := false
  catchingUp : Bool := false
  stepsToDown : Int := 0
  snpInProgress : Bool := false
  armed : Bool := false
  peers : List Peer := []
  role : Role := .follower
  term : Nat := 0
  vote : Int := -1
  log : Log := ⟨1, []⟩
  config : Config
  srvToJoin : Option Peer := none
  confToAdd : Option SrvCfg := none
  lastSnap : Option Snap := none
  smSnap : Option Snap := none
  voted : List Int := []
  prevote : Option (List Int × Nat) := none
  params : Params := {}
  env : Env := Env.plain
  now : Nat := 0
  elapsed : Int := 2 ^ 31 - 1
  trace : List Eff := []

/-- A `peer&` argument is a member of `peers_` or the server that is about to join. -/
inductive PeerRef where
  | member (id : Int)
  | joining
  deriving DecidableEq, Repr

/-- `peers_.find(id)`. -/
def Srv.findPeer (s : Srv) (id : Int) : Option Peer := s.peers.find? (·.id == id)

/-- The peer a reference stands for. -/
def Srv.peer (s : Srv) : PeerRef → Option Peer
  | .member id => s.findPeer id
  | .joining => s.srvToJoin

/-- Change the peer a reference stands for. -/
def Srv.setPeer (s : Srv) (r : PeerRef) (f : Peer → Peer) : Srv :=
  match r with
  | .member id => { s with peers := s.peers.map fun p => if p.id == id then f p else p }
  | .joining => { s with srvToJoin := s.srvToJoin.map f }

/-- `(int32)x` of a 64 bit number. -/
def toI32 (x : Int) : Int := (BitVec.ofInt 32 x).toInt

end Cs.Raft
