import Verif.Buffer.Model

/-!
# Model of the serialization code

`src/srv_config.cxx`, `src/cluster_config.cxx`, `src/snapshot.cxx`, `src/snapshot_sync_req.cxx`,
`include/log_entry.hxx`. `junk` is the arbitrary content of fresh memory, see `Cs.Buffer.alloc`.
-/

namespace Cs.Codec
open Cs Cs.Buffer

/-- `srv_config` (include/srv_config.hxx): id and endpoint. -/
structure SrvConf where
  id : I32
  endpoint : List Byte
  deriving DecidableEq, Repr

/-- `cluster_config` (include/cluster_config.hxx). -/
structure ClusterConf where
  logIdx : U64
  prevLogIdx : U64
  servers : List SrvConf
  deriving DecidableEq, Repr

/-- `snapshot` (include/snapshot.hxx). -/
structure Snap where
  lastIdx : U64
  lastTerm : U64
  size : U64
  conf : ClusterConf
  deriving DecidableEq, Repr

/-- `snapshot_sync_req` (include/snapshot_sync_req.hxx). -/
structure SnapReq where
  snap : Snap
  offset : U64
  data : Buf
  done : Bool
  deriving DecidableEq, Repr

/-- `log_entry` (include/log_entry.hxx 56-135); the cookie is not serialized. `buff = none` is the nil buffer. -/
structure LogEntry where
  term : U64
  vtype : Byte
  buff : Option Buf
  deriving DecidableEq, Repr

variable (junk : Byte)

/-- `srv_config::serialize`, srv_config.cxx 28-35. -/
def SrvConf.serialize (c : SrvConf) : Except Fault Buf := do
  let buf ← alloc junk (4 + c.endpoint.length + 1)
  finish (do putInt c.id; putStr c.endpoint; seek 0) buf

/-- `srv_config::deserialize`, srv_config.cxx 21-26. `cs_new<srv_config>(id, endpoint)` builds a `std::string` from the
`const char*`; from a null pointer that is undefined behaviour. -/
def SrvConf.deserialize : BM SrvConf := do
  let id ← getInt
  let endpoint ← getStr
  match endpoint with
  | none => throw .ub
  | some s => pure { id := id, endpoint := s }

/-- The loop of cluster_config.cxx 26-31: the serialized servers. -/
def serializeServers : List SrvConf → Except Fault (List Buf)
  | [] => .ok []
  | c :: cs => do
    let b ← c.serialize junk
    let bs ← serializeServers cs
    pure (b :: bs)

/-- The loop of cluster_config.cxx 37-40. -/
def putBufs : List Buf → BM Unit
  | [] => pure ()
  | b :: bs => do putBuf b; putBufs bs

/-- `cluster_config::serialize`, cluster_config.cxx 22-44. -/
def ClusterConf.serialize (c : ClusterConf) : Except Fault Buf := do
  let bufs ← serializeServers junk c.servers
  let sz := 2 * 8 + 4 + (bufs.map Buf.size).sum
  let result ← alloc junk sz
  finish (do
    putULong c.logIdx
    putULong c.prevLogIdx
    putInt (BitVec.ofNat 32 c.servers.length)
    putBufs bufs
    seek 0) result

/-- The loop `while (cnt-- > 0)`, cluster_config.cxx 52-55. -/
def deserializeServers : Nat → BM (List SrvConf)
  | 0 => pure []
  | n + 1 => do
    let s ← SrvConf.deserialize
    let ss ← deserializeServers n
    pure (s :: ss)

/-- `cluster_config::deserialize`, cluster_config.cxx 46-58. A negative count runs the loop zero times. -/
def ClusterConf.deserialize : BM ClusterConf := do
  let logIdx ← getULong
  let prevLogIdx ← getULong
  let cnt ← getInt
  let servers ← deserializeServers cnt.toInt.toNat
  pure { logIdx := logIdx, prevLogIdx := prevLogIdx, servers := servers }

/-- `snapshot::serialize`, snapshot.cxx 30-40. -/
def Snap.serialize (s : Snap) : Except Fault Buf := do
  let confBuf ← s.conf.serialize junk
  let buf ← alloc junk (confBuf.size + 8 * 3)
  finish (do
    putULong s.lastIdx
    putULong s.lastTerm
    putULong s.size
    putBuf confBuf
    seek 0) buf

/-- `snapshot::deserialize`, snapshot.cxx 21-28. -/
def Snap.deserialize : BM Snap := do
  let lastIdx ← getULong
  let lastTerm ← getULong
  let size ← getULong
  let conf ← ClusterConf.deserialize
  pure { lastIdx := lastIdx, lastTerm := lastTerm, size := size, conf := conf }

/-- `snapshot_sync_req::serialize`, snapshot_sync_req.cxx 41-51. -/
def SnapReq.serialize (r : SnapReq) : Except Fault Buf := do
  let snpBuf ← r.snap.serialize junk
  let buf ← alloc junk (snpBuf.size + 8 + 1 + r.data.avail)
  finish (do
    putBuf snpBuf
    putULong r.offset
    putByte (if r.done then 1 else 0)
    putBuf r.data
    seek 0) buf

/-- `snapshot_sync_req::deserialize`, snapshot_sync_req.cxx 22-39. The `memcpy` into the fresh buffer stays within it
because it has the same size. -/
def SnapReq.deserialize : BM SnapReq := do
  let snap ← Snap.deserialize
  let offset ← getULong
  let done ← getByte
  let b ← get
  if b.pos < b.size then do
    let sz := b.avail
    let src ← readAt 0 sz
    let dst ← liftM (n := BM) (m := Except Fault) (alloc junk sz)
    pure { snap := snap, offset := offset, data := { dst with data := src }, done := done == 1 }
  else do
    let dst ← liftM (n := BM) (m := Except Fault) (alloc junk 0)
    pure { snap := snap, offset := offset, data := dst, done := done == 1 }

/-- `log_entry::serialize`, log_entry.hxx 104-113. `buff_->pos(0)` on a nil buffer is undefined behaviour. -/
def LogEntry.serialize (e : LogEntry) : Except Fault Buf :=
  match e.buff with
  | none => .error .ub
  | some b0 => do
    let b ← finish (seek 0) b0
    let buf ← alloc junk (8 + 1 + b.size)
    finish (do
      putULong e.term
      putByte e.vtype
      putBuf b
      seek 0) buf

/-- `log_entry::deserialize`, log_entry.hxx 115-121. -/
def LogEntry.deserialize : BM LogEntry := do
  let term ← getULong
  let t ← getByte
  let b ← get
  let data ← liftM (n := BM) (m := Except Fault) (copy junk b)
  pure { term := term, vtype := t, buff := some data }

/-- `log_entry::term_in_buffer`, log_entry.hxx 123-128. -/
def termInBuffer : BM U64 := do
  let term ← getULong
  seek 0
  pure term

end Cs.Codec
