/-!
# The RPC client

`asio_rpc_client`, src/asio_service.cxx 384-556: one socket, and for each request a chain of asynchronous operations, resolve,
connect, write, read, at the end of which the handler of the request is called with the answer or with an error. Nothing keeps a
second request from being sent while the first is on its way. The completion handlers run on any worker thread (lines 612-622),
so two completions can be handled in any order.

The requests are numbered in the order of the calls of `send`. What comes back on the connection is represented by the number of
the request it answers. The other side, `rpc_session`, handles the requests of a connection one after the other and answers each
(lines 133-307), so the answers come in the order of the requests.

About asio, which is not in the repository: `async_connect` closes the socket, opens it and connects it, for each address in
turn; when the last address fails the socket stays open. Closing the socket ends its pending operations with an error. Pending
reads are served in the order in which they were started. An operation on a socket that is open and not connected fails; a write
during the connection attempt may wait for its end or fail.

Simplifications: a request or an answer is written and read in one piece, so pieces of two requests written at the same time do
not mix. The number of addresses tried is not represented. A request that is too large for a buffer (lines 436 and 447) is not
represented.
-/

namespace Cs.Client

/-- `socket_`. -/
inductive Sock where
  /-- `is_open()` is false -/
  | closed
  /-- a connection attempt runs -/
  | opening
  | up
  /-- open, but there is no connection: the attempt has failed or the connection is lost -/
  | dead
  deriving DecidableEq, Repr

/-- Where a request is. -/
inductive Pc where
  /-- in `async_resolve`, line 406 -/
  | resolve
  /-- in `async_connect`, line 412 -/
  | connect
  /-- the attempt has ended, before `connected`, lines 473-490, is called -/
  | connected (ok : Bool)
  /-- in `async_write`, line 463 -/
  | write
  /-- before `sent`, lines 492-520, is called -/
  | written (ok : Bool)
  /-- in `async_read`, line 505 -/
  | read
  /-- before `response_read`, lines 522-549, is called, with the answer -/
  | gotten (answer : Option Nat)
  /-- the handler has been called -/
  | done
  deriving DecidableEq, Repr

/-- A client with its requests. -/
structure St where
  sock : Sock := .closed
  /-- the requests written to the connection whose answers have not been read -/
  wire : List Nat := []
  /-- the requests whose answers are read from the connection, the earliest first -/
  readers : List Nat := []
  /-- where each request is -/
  reqs : List Pc := []
  /-- the calls of the handlers: the request, and the request whose answer it is given, or nothing for an error -/
  calls : List (Nat × Option Nat) := []
  deriving DecidableEq, Repr

/-- What `socket_.close()` does to a request: its operation ends with an error. -/
def Pc.aborted : Pc → Pc
  | .connect => .connected false
  | .write => .written false
  | .read => .gotten none
  | p => p

/-- `socket_.close()`. -/
def St.close (s : St) : St :=
  { s with sock := .closed, wire := [], readers := [], reqs := s.reqs.map Pc.aborted }

/-- The request goes on. -/
def St.goto (s : St) (k : Nat) (p : Pc) : St := { s with reqs := s.reqs.set k p }

/-- `when_done` is called. -/
def St.call (s : St) (k : Nat) (a : Option Nat) : St := { s.goto k .done with calls := s.calls ++ [(k, a)] }

/-- The first operation of `send`, lines 400-470. -/
def St.firstOp (s : St) : Pc := if s.sock = .closed then .resolve else .write

/-- `async_read`, line 505. On a closed socket it fails at once. -/
def St.startRead (s : St) (k : Nat) : St :=
  if s.sock = .closed then s.goto k (.gotten none) else { s.goto k .read with readers := s.readers ++ [k] }

/-- `async_connect`, line 412. -/
def St.startConnect (s : St) (k : Nat) : St := { s.close.goto k .connect with sock := .opening }

/-- What happens next. -/
inductive Act where
  /-- `send` is called -/
  | send
  /-- the name is resolved, or not, and the handler of lines 408-425 runs -/
  | resolved (k : Nat) (ok : Bool)
  /-- the connection attempt ends -/
  | connectEnd (k : Nat) (ok : Bool)
  /-- the request is written, or not -/
  | writeEnd (k : Nat) (ok : Bool)
  /-- an answer arrives -/
  | answer
  /-- a read fails -/
  | readErr (k : Nat)
  /-- the connection is lost -/
  | lost
  /-- a worker thread takes a completion -/
  | take (k : Nat)
  deriving DecidableEq, Repr

/-- `connected`, `sent` and `response_read`, lines 473-549. -/
def stepTake (s : St) (k : Nat) : St :=
  match s.reqs[k]? with
  | some (.connected true) => s.goto k s.firstOp
  | some (.connected false) => s.call k none
  | some (.written true) => s.startRead k
  | some (.written false) => s.close.call k none
  | some (.gotten (some a)) => s.call k (some a)
  | some (.gotten none) => s.close.call k none
  | _ => s

/-- The end of `async_resolve`, lines 408-425. -/
def stepResolved (s : St) (k : Nat) (ok : Bool) : St :=
  if s.reqs[k]? = some .resolve then (if ok then s.startConnect k else s.call k none) else s

/-- The connection is lost, and with it the answers on their way. -/
def stepLost (s : St) : St := if s.sock = .up then { s with sock := .dead, wire := [] } else s

/-- The end of a connection attempt. -/
def stepConnect (s : St) (k : Nat) (ok : Bool) : St :=
  if s.reqs[k]? = some .connect ∧ s.sock = .opening then
    { s.goto k (.connected ok) with sock := if ok then .up else .dead }
  else s

/-- The end of a write. -/
def stepWrite (s : St) (k : Nat) (ok : Bool) : St :=
  if s.reqs[k]? = some .write ∧ (s.sock = .up ↔ ok = true) then
    { s.goto k (.written ok) with wire := if ok then s.wire ++ [k] else s.wire }
  else s

/-- The first read gets the first answer. -/
def stepAnswer (s : St) : St :=
  match s.readers, s.wire with
  | k :: rs, a :: w => if s.sock = .up then { s.goto k (.gotten (some a)) with readers := rs, wire := w } else s
  | _, _ => s

/-- A read fails. -/
def stepReadErr (s : St) (k : Nat) : St :=
  if s.reqs[k]? = some .read ∧ s.sock = .dead then { s.goto k (.gotten none) with readers := s.readers.erase k } else s

/-- One action. -/
def step (s : St) : Act → St
  | .send => { s with reqs := s.reqs ++ [s.firstOp] }
  | .resolved k ok => stepResolved s k ok
  | .connectEnd k ok => stepConnect s k ok
  | .writeEnd k ok => stepWrite s k ok
  | .answer => stepAnswer s
  | .readErr k => stepReadErr s k
  | .lost => stepLost s
  | .take k => stepTake s k

/-- An execution. -/
def run (s : St) (as : List Act) : St := as.foldl step s

end Cs.Client
