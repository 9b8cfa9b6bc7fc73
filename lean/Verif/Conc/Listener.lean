/-!
# The listener and its sessions

Model of `asio_rpc_listener` (src/asio_service.cxx 307-382) and of the order of events in `rpc_session` (lines 128-299). What the bytes
of a request mean is in `Rpc/Model.lean`; here a request is its number, the size announced in its header, and whether its data can
be read.

An execution is a list of actions: a connection arrives at the port, the pending accept ends, its handler runs, a pending read or write
of a session ends and its handler runs, the message handler returns, `stop` is called, the other side of a connection sends or closes.

Simplifications: `listen` has been called, once. Handlers always find a worker thread (`Conc/Service.lean` has the workers). Reading
fewer bytes than asked for is not seen by a session (`async_read` goes on), so parts of messages arrive at once. Accesses to the
acceptor from the thread that calls `stop` and from handlers are single steps; in the code nothing orders them.
-/

namespace Cs.Listener

/-- What the other side of a connection sends: the header of request `n` with the announced size of the data; data that can be read or not. -/
inductive Part where
  | head (n : Nat) (size : Int)
  | data (good : Bool)
  deriving DecidableEq, Repr

/-- What can be seen at a session: a request is given to the message handler; an answer leaves. -/
inductive Ev where
  | took (n : Nat)
  | answered (n a : Nat)
  deriving DecidableEq, Repr

/-- Where a session is. -/
inductive Ph where
  /-- the read of lines 161-163 is pending -/
  | header
  /-- the read of lines 187-190 is pending -/
  | data (n : Nat)
  /-- in `process_req`, line 257 -/
  | handling (n : Nat)
  /-- the write of lines 274-276 is pending -/
  | writing (n a : Nat)
  /-- the bytes have left, the handler of lines 277-290 is to run -/
  | wrote
  /-- `stop` was called, lines 200-207 -/
  | closed
  deriving DecidableEq, Repr

/-- A session and its connection. -/
structure Ses where
  ph : Ph := .header
  /-- all that the other side has sent -/
  sent : List Part := []
  /-- sent by the other side, not read -/
  inn : List Part := []
  /-- the other side has closed -/
  fin : Bool := false
  /-- what happened, in order -/
  evs : List Ev := []
  deriving DecidableEq, Repr

/-- The session of a new connection (line 352). -/
def Ses.new : Ses := {}

/-- The accept of the listener. -/
inductive Acc where
  /-- none -/
  | none
  /-- pending, lines 345-346 -/
  | pending
  /-- ended with a connection; the handler of lines 347-360 is to run -/
  | got
  /-- ended with an error; the handler is to run -/
  | failed
  deriving DecidableEq, Repr

/-- The state. -/
structure St where
  /-- `acceptor_.is_open()` -/
  isOpen : Bool := true
  acc : Acc := .pending
  /-- connections that arrived and are not accepted -/
  backlog : Nat := 0
  /-- the sessions that were started, from the first on -/
  ses : List Ses := []
  deriving DecidableEq, Repr

/-- Actions. -/
inductive Act where
  /-- a connection arrives -/
  | connect
  /-- the pending accept gets a connection -/
  | accept
  /-- the pending accept fails -/
  | fail
  /-- the handler of the accept runs -/
  | accepted
  /-- `stop` of the listener -/
  | stop
  /-- the other side of connection `i` sends -/
  | send (i : Nat) (p : Part)
  /-- the other side of connection `i` closes -/
  | close (i : Nat)
  /-- the pending read of session `i` ends and its handler runs -/
  | read (i : Nat)
  /-- `process_req` of session `i` returns a response; `none`: it returns null or throws -/
  | reply (i : Nat) (a : Option Nat)
  /-- the pending write of session `i` ends -/
  | write (i : Nat) (ok : Bool)
  /-- the handler of the write runs -/
  | written (i : Nat)
  deriving DecidableEq, Repr

/-- `asio_rpc_listener::start`, lines 335-346. -/
def St.start (s : St) : St := if s.isOpen then { s with acc := .pending } else { s with acc := .none }

/-- The handler of lines 347-360. -/
def St.accepted (s : St) : St := match s.acc with
  | .got => { s with ses := s.ses ++ [Ses.new] }.start
  | .failed => s.start
  | .pending => s
  | .none => s

/-- `asio_rpc_listener::stop`, lines 323-326: the pending accept ends with an error. `active_sessions_` is always empty (nothing is ever
put in, see lines 335-373), and `stop` does not use it. -/
def St.stop (s : St) : St := { s with isOpen := false, acc := if s.acc = .pending then .failed else s.acc }

/-- The handler of the read of the header, lines 164-197. -/
def Ses.header (s : Ses) (n : Nat) (size : Int) (rest : List Part) : Ses :=
  if size < 0 ∨ size > 0x1000000 then { s with ph := .closed, inn := rest }
  else if size = 0 then { s with ph := .handling n, inn := rest, evs := s.evs ++ [.took n] }
  else { s with ph := .data n, inn := rest }

/-- The handlers of the reads: lines 164-197, 215-226, 233-256. The connection is at its end when the other side has closed and all is
read. Data where a header is expected, or a header where data is expected, is a message that cannot be read. -/
def Ses.read (s : Ses) : Ses := match s.ph, s.inn with
  | .header, .head n size :: rest => s.header n size rest
  | .header, .data _ :: rest => { s with ph := .closed, inn := rest }
  | .header, [] => if s.fin then { s with ph := .closed } else s
  | .data n, .data true :: rest => { s with ph := .handling n, inn := rest, evs := s.evs ++ [.took n] }
  | .data _, _ :: rest => { s with ph := .closed, inn := rest }
  | .data _, [] => if s.fin then { s with ph := .closed } else s
  | _, _ => s

/-- Lines 257-276, 293-297. -/
def Ses.reply (s : Ses) (a : Option Nat) : Ses := match s.ph, a with
  | .handling n, some a => { s with ph := .writing n a }
  | .handling _, none => { s with ph := .closed }
  | _, _ => s

/-- The write of lines 274-276 ends; on an error the session stops (lines 284-289). -/
def Ses.write (s : Ses) (ok : Bool) : Ses := match s.ph with
  | .writing n a => if ok then { s with ph := .wrote, evs := s.evs ++ [.answered n a] } else { s with ph := .closed }
  | _ => s

/-- Lines 279-283. -/
def Ses.written (s : Ses) : Ses := match s.ph with
  | .wrote => { s with ph := .header }
  | _ => s

/-- A change of session `i`. -/
def St.at (s : St) (i : Nat) (f : Ses → Ses) : St := { s with ses := s.ses.modify i f }

/-- One action. -/
def St.step (s : St) : Act → St
  | .connect => { s with backlog := s.backlog + 1 }
  | .accept => if s.acc = .pending ∧ 0 < s.backlog then { s with acc := .got, backlog := s.backlog - 1 } else s
  | .fail => if s.acc = .pending then { s with acc := .failed } else s
  | .accepted => s.accepted
  | .stop => s.stop
  | .send i p => s.at i fun c => if c.fin then c else { c with sent := c.sent ++ [p], inn := c.inn ++ [p] }
  | .close i => s.at i fun c => { c with fin := true }
  | .read i => s.at i Ses.read
  | .reply i a => s.at i fun c => c.reply a
  | .write i ok => s.at i fun c => c.write ok
  | .written i => s.at i Ses.written

/-- An execution. -/
def St.run (s : St) (as : List Act) : St := as.foldl St.step s

/-- `listen` was called. -/
def St.init : St := {}

end Cs.Listener
