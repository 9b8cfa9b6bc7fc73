import Verif.Codec.Model

/-!
# Model of the RPC frames, `src/asio_service.cxx`

The sender is `asio_rpc_client::send` (400-469) and `response_read` (522-549), the receiver `rpc_session`
(133-300). Sockets are byte streams: a `List Byte` of what arrives. asio's completion order, resolving and connecting
are not modelled.
-/

namespace Cs.Rpc
open Cs Cs.Buffer Cs.Codec

/-- `req_msg` (include/req_msg.hxx, include/msg_base.hxx). The type is the byte that travels. -/
structure Req where
  type : Byte
  src : I32
  dst : I32
  term : U64
  lastLogTerm : U64
  lastLogIdx : U64
  commitIdx : U64
  entries : List LogEntry
  deriving DecidableEq, Repr

/-- `resp_msg` (include/resp_msg.hxx). -/
structure Resp where
  type : Byte
  src : I32
  dst : I32
  term : U64
  nextIdx : U64
  accepted : Bool
  deriving DecidableEq, Repr

variable (junk : Byte)

/-- `RPC_REQ_HEADER_SIZE`, asio_service.cxx 34: `3 * 4 + 8 * 4 + 1`. -/
def reqHeaderSize : Nat := 3 * 4 + 8 * 4 + 1
/-- `RPC_RESP_HEADER_SIZE`, asio_service.cxx 38: `4 * 2 + 8 * 2 + 2`. -/
def respHeaderSize : Nat := 4 * 2 + 8 * 2 + 2

/-! ## Sender -/

/-- One iteration of the loop asio_service.cxx 432-445. `get_buf()` throws for a nil buffer. -/
def encodeEntry (e : LogEntry) : Except Fault Buf :=
  match e.buff with
  | none => .error .thrown
  | some b0 => do
    let buf ← alloc junk (8 + 1 + 4 + b0.size)
    let b ← finish (seek 0) b0
    finish (do
      putULong e.term
      putByte e.vtype
      putInt (BitVec.ofNat 32 b0.size)
      putBuf b
      seek 0) buf

/-- The loop asio_service.cxx 432-445. -/
def encodeEntries : List LogEntry → Except Fault (List Buf)
  | [] => .ok []
  | e :: es => do
    let b ← encodeEntry junk e
    let bs ← encodeEntries es
    pure (b :: bs)

/-- `log_data_size`, an int32 that accumulates the sizes (431 and 443). -/
def logDataSize (bs : List Buf) : I32 := bs.foldl (fun a b => a + BitVec.ofNat 32 b.size) 0#32

/-- Filling `req_buf`, asio_service.cxx 447-461; `n` is `log_data_size`. `RPC_REQ_HEADER_SIZE + log_data_size` is an
`int` converted to `size_t`. -/
def assemble (r : Req) (bufs : List Buf) (n : I32) : Except Fault Buf := do
  let buf ← alloc junk ((BitVec.ofNat 32 reqHeaderSize + n).signExtend 64).toNat
  finish (do
    putByte r.type
    putInt r.src
    putInt r.dst
    putULong r.term
    putULong r.lastLogTerm
    putULong r.lastLogIdx
    putULong r.commitIdx
    putInt n
    putBufs bufs
    seek 0) buf

/-- The bytes written to the socket by `asio_rpc_client::send`, asio_service.cxx 429-462. -/
def encodeReq (r : Req) : Except Fault Buf := do
  let bufs ← encodeEntries junk r.entries
  assemble junk r bufs (logDataSize bufs)

/-- The bytes of a response, asio_service.cxx 265-272. -/
def encodeResp (r : Resp) : Except Fault Buf := do
  let buf ← alloc junk respHeaderSize
  finish (do
    putByte r.type
    putInt r.src
    putInt r.dst
    putULong r.term
    putULong r.nextIdx
    putByte (if r.accepted then 1 else 0)
    seek 0) buf

/-! ## Receiver -/

/-- `rpc_session`: the reusable header buffer (141) and the log data buffer (140). -/
structure Session where
  header : Buf
  logData : Buf
  deriving DecidableEq, Repr

/-- Construction, asio_service.cxx 136-146. -/
def Session.new : Except Fault Session := do
  let ld ← alloc junk 0
  let h ← alloc junk reqHeaderSize
  pure { header := h, logData := ld }

/-- What becomes of the bytes that arrive. -/
inductive Outcome where
  /-- fewer bytes than needed arrived: asio reports an error when the connection ends, the session stops -/
  | incomplete
  /-- `stop()` was called: bad size or an exception while parsing -/
  | closed
  /-- undefined behaviour -/
  | ub
  /-- a request was handed to the message handler; the session state and the unread rest of the stream -/
  | request (r : Req) (s : Session) (rest : List Byte)
  deriving DecidableEq

/-- `asio::async_read` of `n` bytes into `data()`. Writing past the block is undefined behaviour. -/
def recvInto (b : Buf) (bs : List Byte) : Except Fault Buf :=
  if b.pos + bs.length ≤ b.data.length then .ok { b with data := splice b.data b.pos bs } else .error .ub

/-- The loop of asio_service.cxx 245-254 over the log data. `fuel` bounds the iterations: each consumes 13 bytes or more,
so one more than the size is never used up. -/
def parseEntries : Nat → BM (List LogEntry)
  | 0 => pure []
  | fuel + 1 => do
    let b ← get
    if b.size > b.pos then do
      let term ← getULong
      let vt ← getByte
      let sz ← getInt
      let buf ← liftM (n := BM) (m := Except Fault) (alloc junk (sz.signExtend 64).toNat)
      let buf' ← getBuf buf
      let es ← parseEntries fuel
      pure ({ term := term, vtype := vt, buff := some buf' } :: es)
    else pure []

/-- The header part of `read_complete`, asio_service.cxx 233-242; the last value is the announced data size. -/
def parseHeader : BM (Req × I32) := do
  seek 0
  let t ← getByte
  let src ← getInt
  let dst ← getInt
  let term ← getULong
  let lastTerm ← getULong
  let lastIdx ← getULong
  let commitIdx ← getULong
  let n ← getInt
  pure ({ type := t, src := src, dst := dst, term := term, lastLogTerm := lastTerm, lastLogIdx := lastIdx,
          commitIdx := commitIdx, entries := [] }, n)

/-- The log data part of `read_complete`, asio_service.cxx 243-255. -/
def parseLogData : BM (List LogEntry) := do
  seek 0
  let b ← get
  parseEntries junk (b.size + 1)

/-- `read_complete` after the log data has been parsed, asio_service.cxx 268-298: the request goes to the handler and
the header is rewound (281-282) for the next frame. An exception stops the session (293-297). -/
def onEntries (r : Req) (h : Buf) (rest : List Byte) : Except Fault (List LogEntry) × Buf → Outcome
  | (.error .thrown, _) => .closed
  | (.error _, _) => .ub
  | (.ok es, ld) => .request { r with entries := es } { header := (seek 0 h).2, logData := ld } rest

/-- `read_complete` after the header has been parsed, asio_service.cxx 243-256. `log_data_` is never null here. -/
def onParsed (logData : Buf) (rest : List Byte) : Except Fault (Req × I32) × Buf → Outcome
  | (.error .thrown, _) => .closed
  | (.error _, _) => .ub
  | (.ok (r, n), h) =>
    if n.toInt > 0 then onEntries r h rest (parseLogData junk logData)
    else .request r { header := (seek 0 h).2, logData := logData } rest

/-- `read_complete`, asio_service.cxx 228-298, up to handing the request to the handler. -/
def readComplete (s : Session) (rest : List Byte) : Outcome :=
  onParsed junk s.logData rest (parseHeader s.header)

/-- Handler of the read of the log data, asio_service.cxx 213-226. -/
def onData (h : Buf) (rest : List Byte) : Except Fault Buf → Outcome
  | .error _ => .ub
  | .ok ld => readComplete junk { header := h, logData := ld } rest

/-- Reading `sz > 0` bytes of log data into the new buffer, asio_service.cxx 187-193. -/
def onAlloc (h : Buf) (sz : Nat) (input : List Byte) : Except Fault Buf → Outcome
  | .error _ => .closed
  | .ok ld => if input.length < sz then .incomplete else onData junk h (input.drop sz) (recvInto ld (input.take sz))

/-- The announced log data size, asio_service.cxx 168-169. -/
def readSize : BM I32 := do
  seek (reqHeaderSize - 4)
  getInt

/-- What `start` does with the announced log data size, asio_service.cxx 170-193; `rest` follows the header. -/
def onSize (s : Session) (rest : List Byte) : Except Fault I32 × Buf → Outcome
  | (.error .thrown, _) => .closed
  | (.error _, _) => .ub
  | (.ok n, h) =>
    if n.toInt < 0 ∨ n.toInt > 0x1000000 then .closed
    else if n.toInt = 0 then readComplete junk { s with header := h } rest
    else onAlloc junk h n.toInt.toNat rest (alloc junk n.toInt.toNat)

/-- Handler of the read of the header, asio_service.cxx 164-169. -/
def onHeader (s : Session) (rest : List Byte) : Except Fault Buf → Outcome
  | .error _ => .ub
  | .ok h => onSize junk s rest (readSize h)

/-- `start`, asio_service.cxx 158-198, on the bytes that arrive. -/
def receive (s : Session) (input : List Byte) : Outcome :=
  if input.length < reqHeaderSize then .incomplete
  else onHeader junk s (input.drop reqHeaderSize) (recvInto s.header (input.take reqHeaderSize))

/-- `response_read`, asio_service.cxx 522-541, on the 26 bytes that were read. -/
def parseResp : BM Resp := do
  let t ← getByte
  let src ← getInt
  let dst ← getInt
  let term ← getULong
  let nxt ← getULong
  let acc ← getByte
  pure { type := t, src := src, dst := dst, term := term, nextIdx := nxt, accepted := acc == 1 }

/-- The indexing `__msg_type_str[req.get_type()]` performed first thing by `raft_server::process_req`
(raft_server_req_handlers.cxx 27-30, table of 20 entries at raft_server.cxx 27-47): undefined behaviour beyond the table. -/
def msgTypeName (t : Byte) : Except Fault Unit := if t.toNat < 20 then .ok () else .error .ub

end Cs.Rpc
