import Verif.Raft.Types
import Verif.Rpc.Model
import Verif.Codec.Lemmas

/-!
# From messages of the server model to bytes and back

The server model (`Verif/Raft`) has messages with decoded payloads, the frames (`Verif/Rpc`) have messages with payload buffers.
Here the two are tied together: `wire` makes the payload buffers as the code that makes the message does, `unwire` decodes them as the
handlers do.
-/

namespace Cs.Link
open Cs Cs.Buffer Cs.Codec

/-- The server model has numbers for endpoints and commands. A dictionary says which strings and buffers they stand for: `endpoint`
and `command` give them, `endpointOf` and `commandOf` recognise them. The format of log packs belongs to the log store
(`Verif/LogStore`). -/
structure Dict where
  endpoint : Nat → List Byte
  endpointOf : List Byte → Nat
  command : Nat → Buf
  commandOf : List Byte → Nat
  pack : List Raft.Entry → List Byte
  packOf : List Byte → List Raft.Entry
  /-- the position at which `read_snapshot_data` leaves the buffer when it has filled it with these bytes; the interface does not say
  (include/state_machine.hxx 37) -/
  left : List Byte → Nat := fun _ => 0

variable (D : Dict) (junk : Byte)

/-! ## Sender -/

/-- `srv_config`, include/srv_config.hxx 27-57. -/
def toSrv (c : Raft.SrvCfg) : SrvConf := ⟨BitVec.ofInt 32 c.id, D.endpoint c.endpoint⟩

/-- `cluster_config`, include/cluster_config.hxx 25-89. -/
def toConf (c : Raft.Config) : ClusterConf := ⟨BitVec.ofNat 64 c.logIdx, BitVec.ofNat 64 c.prevLogIdx, c.servers.map (toSrv D)⟩

/-- `snapshot`, include/snapshot.hxx 25-70. -/
def toSnap (s : Raft.Snap) : Codec.Snap :=
  ⟨BitVec.ofNat 64 s.lastIdx, BitVec.ofNat 64 s.lastTerm, BitVec.ofNat 64 s.size, toConf D s.config⟩

/-- A fresh buffer that the log store or the state machine fills through `data()`, src/fs_log_store.cxx 530-560,
raft_server.cxx 833-836. -/
def fill (bs : List Byte) : Except Fault Buf := do
  let b ← alloc junk bs.length
  pure { b with data := bs }

/-- `cs_new<snapshot_sync_req>(...)->serialize()`, raft_server.cxx 833-855. -/
def snpBuf (q : Raft.SnpSync) : Except Fault Buf := do
  let d0 ← fill junk q.data
  let d ← finish (seek (D.left q.data)) d0
  SnapReq.serialize junk ⟨toSnap D q.snap, BitVec.ofNat 64 q.offset, d, q.done⟩

/-- The buffer of `remove_srv`, raft_server.cxx 980-982. -/
def rmBuf (id : Int) : Except Fault Buf := do
  let b ← alloc junk 4
  finish (do putInt (BitVec.ofInt 32 id); seek 0) b

/-- The payload of an entry: commands as given to `append_entries` (raft_server.cxx 960-976) or `replicate_log`, configurations
(452, raft_server_req_handlers.cxx 549, 590, 650), servers (raft_server.cxx 953), log packs (raft_server_req_handlers.cxx 574),
snapshot blocks (raft_server.cxx 855). A snapshot block without content cannot be made. -/
def payload (r : Raft.Req) : Raft.Val → Except Fault Buf
  | .app d => .ok (D.command d)
  | .conf c => (toConf D c).serialize junk
  | .srv c => (toSrv D c).serialize junk
  | .rmId id => rmBuf junk id
  | .logPack => fill junk (D.pack r.pack)
  | .snpSync =>
    match r.sync with
    | some q => snpBuf D junk q
    | none => .error .ub

/-- `log_val_type`, include/log_val_type.hxx 21-28. -/
def valByte : Raft.Val → Byte
  | .app _ => 1
  | .conf _ => 2
  | .srv _ | .rmId _ => 3
  | .logPack => 4
  | .snpSync => 5

/-- The entries of a request, with their buffers. -/
def wireEntries (r : Raft.Req) : List Raft.Entry → Except Fault (List LogEntry)
  | [] => .ok []
  | e :: es => do
    let b ← payload D junk r e.val
    let bs ← wireEntries r es
    pure (⟨BitVec.ofNat 64 e.term, valByte e.val, some b⟩ :: bs)

/-- `msg_type`, include/msg_type.hxx 22-43. -/
def typeByte : Raft.MsgType → Byte
  | .voteReq => 1 | .voteResp => 2 | .appendReq => 3 | .appendResp => 4 | .clientReq => 5 | .addReq => 6 | .addResp => 7
  | .rmReq => 8 | .rmResp => 9 | .syncReq => 10 | .syncResp => 11 | .joinReq => 12 | .joinResp => 13 | .leaveReq => 14
  | .leaveResp => 15 | .snpReq => 16 | .snpResp => 17 | .prevoteReq => 18 | .prevoteResp => 19

/-- The `req_msg` that is handed to `asio_rpc_client::send`, include/req_msg.hxx 25-75. -/
def wire (r : Raft.Req) : Except Fault Rpc.Req := do
  let es ← wireEntries D junk r r.entries
  pure { type := typeByte r.type, src := BitVec.ofInt 32 r.src, dst := BitVec.ofInt 32 r.dst, term := BitVec.ofNat 64 r.term,
         lastLogTerm := BitVec.ofNat 64 r.lastTerm, lastLogIdx := BitVec.ofNat 64 r.lastIdx,
         commitIdx := BitVec.ofNat 64 r.commitIdx, entries := es }

/-- The `resp_msg` that goes back, include/resp_msg.hxx 24-55. -/
def wireResp (r : Raft.Resp) : Rpc.Resp :=
  { type := typeByte r.type, src := BitVec.ofInt 32 r.src, dst := BitVec.ofInt 32 r.dst, term := BitVec.ofNat 64 r.term,
    nextIdx := BitVec.ofNat 64 r.nextIdx, accepted := r.accepted }

/-! ## Receiver -/

/-- Back from `srv_config`. -/
def ofSrv (c : SrvConf) : Raft.SrvCfg := ⟨c.id.toInt, D.endpointOf c.endpoint⟩

/-- Back from `cluster_config`. -/
def ofConf (c : ClusterConf) : Raft.Config := ⟨c.logIdx.toNat, c.prevLogIdx.toNat, c.servers.map (ofSrv D)⟩

/-- Back from `snapshot`. -/
def ofSnap (s : Codec.Snap) : Raft.Snap := ⟨s.lastIdx.toNat, s.lastTerm.toNat, ofConf D s.conf, s.size.toNat⟩

/-- Back from `snapshot_sync_req`. The block is what lies behind the position, as in snapshot_sync_req.cxx 27-35. -/
def ofSync (q : SnapReq) : Raft.SnpSync := ⟨ofSnap D q.snap, q.offset.toNat, q.data.content, q.done⟩

/-- What the handlers find in an entry. -/
inductive Found where
  | plain (v : Raft.Val)
  | pack (es : List Raft.Entry)
  | sync (q : Raft.SnpSync)

/-- The entry of the server model. -/
def Found.val : Found → Raft.Val
  | .plain v => v
  | .pack _ => .logPack
  | .sync _ => .snpSync

/-- How the handlers read a payload: commands go to the state machine as they are (raft_server.cxx 917, all bytes: the buffer is at its
start), configurations are deserialized (raft_server.cxx 565, 923, raft_server_req_handlers.cxx 618), in a remove request a number of
four bytes is read (420 and 439), in other requests a server (488); log packs go to the log store (530), snapshot blocks are
deserialized (332). Other types are rejected by the handlers that look at them; here they are undefined behaviour. In the code the
payload is decoded when it is needed, not on arrival. -/
def readVal (t : Raft.MsgType) (v : Byte) (b : Buf) : Except Fault Found :=
  if v = 1 then .ok (.plain (.app (D.commandOf b.content)))
  else if v = 2 then (ClusterConf.deserialize b).1.map fun c => .plain (.conf (ofConf D c))
  else if v = 3 then
    if t = .rmReq then
      if b.size ≠ 4 then .error .ub else (getInt b).1.map fun i => .plain (.rmId i.toInt)
    else (SrvConf.deserialize b).1.map fun c => .plain (.srv (ofSrv D c))
  else if v = 4 then .ok (.pack (D.packOf b.content))
  else if v = 5 then (SnapReq.deserialize junk b).1.map fun q => .sync (ofSync D q)
  else .error .ub

/-- All entries. `get_buf` throws without a buffer, include/log_entry.hxx 82-92. -/
def readEntries (t : Raft.MsgType) : List LogEntry → Except Fault (List (Nat × Found))
  | [] => .ok []
  | e :: es =>
    match e.buff with
    | none => .error .thrown
    | some b => do
      let f ← readVal D junk t e.vtype b
      let fs ← readEntries t es
      pure ((e.term.toNat, f) :: fs)

/-- The log pack of a request, if there is one. -/
def packIn : List (Nat × Found) → List Raft.Entry
  | [] => []
  | (_, .pack es) :: _ => es
  | _ :: fs => packIn fs

/-- The snapshot block of a request, if there is one. -/
def syncIn : List (Nat × Found) → Option Raft.SnpSync
  | [] => none
  | (_, .sync q) :: _ => some q
  | _ :: fs => syncIn fs

/-- `msg_type` from the byte; there is no such type for other bytes. -/
def typeOf (b : Byte) : Option Raft.MsgType :=
  [.voteReq, .voteResp, .appendReq, .appendResp, .clientReq, .addReq, .addResp, .rmReq, .rmResp, .syncReq, .syncResp, .joinReq,
   .joinResp, .leaveReq, .leaveResp, .snpReq, .snpResp, .prevoteReq, .prevoteResp].find? fun t => typeByte t == b

/-- The request of the server model that the handlers work on. -/
def unwire (w : Rpc.Req) : Except Fault Raft.Req :=
  match typeOf w.type with
  | none => .error .ub
  | some t => do
    let fs ← readEntries D junk t w.entries
    pure { type := t, src := w.src.toInt, dst := w.dst.toInt, term := w.term.toNat, lastTerm := w.lastLogTerm.toNat,
           lastIdx := w.lastLogIdx.toNat, commitIdx := w.commitIdx.toNat, entries := fs.map (fun f => ⟨f.1, f.2.val⟩),
           pack := packIn fs, sync := syncIn fs }

/-- The response of the server model. -/
def unwireResp (w : Rpc.Resp) : Option Raft.Resp :=
  (typeOf w.type).map fun t =>
    { type := t, src := w.src.toInt, dst := w.dst.toInt, term := w.term.toNat, nextIdx := w.nextIdx.toNat, accepted := w.accepted }

end Cs.Link
