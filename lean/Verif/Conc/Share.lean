import Verif.Rpc.Props

/-!
# The buffer of a log entry and those who share it

An entry that is kept in memory by the log store (`log_store_buffer`, src/fs_log_store.cxx 78-148) is one object, and so is its
buffer. `entry_at` (441-481) and `log_entries` (369-439) hand out that very object, to

* the handlers, which give its buffer to `state_machine::pre_commit` and `rollback` (src/raft_server_req_handlers.cxx 146, 158, 182
  and 257),
* the commit thread, which gives its buffer to `state_machine::commit` without taking a mutex (src/raft_server.cxx 914-918),
* the threads that write requests to the sockets (`asio_rpc_client::send`, src/asio_service.cxx 432-445).

All of them use the one position of the buffer. This is the model of one entry of one server: the objects it has in memory, which of
them the log store keeps, and the threads that use them, step by step.

Simplifications: reads and writes are sequentially consistent and the steps are whole calls of `buffer` functions (the accesses to the
position are data races in C++). The state machine only reads the buffer and only uses it during the call.
-/

namespace Cs.Share
open Cs Cs.Buffer Cs.Codec Cs.Rpc

/-- What a state machine may do with the buffer it is given: read a value, or set the position. -/
inductive Look where
  | byte | int | ulong | str
  | seek (p : Nat)
  deriving DecidableEq, Repr

/-- What it learns; nothing from setting the position. -/
inductive Seen where
  | byte (v : Byte) | int (v : I32) | ulong (v : U64) | str (s : Option (List Byte)) | none
  deriving DecidableEq, Repr

/-- The calls of `buffer`, buffer.cxx 108-182. -/
def Look.call : Look → BM Seen
  | .byte => do let v ← getByte; pure (.byte v)
  | .int => do let v ← getInt; pure (.int v)
  | .ulong => do let v ← getULong; pure (.ulong v)
  | .str => do let v ← getStr; pure (.str v)
  | .seek p => do Buffer.seek p; pure .none

/-- A buffer that holds `bs` with the position at the beginning, as `log_entry::deserialize` makes it (include/log_entry.hxx 115-121;
that it gives back what was written is C09). Buffers of 2 GiB and more cannot be made. -/
def fresh (bs : List Byte) : Buf :=
  match alloc 0 bs.length with
  | .ok b => { b with data := bs }
  | .error _ => { w0 := 0, w1 := 0, data := bs }

/-- One entry of one server. -/
structure World where
  /-- the payload in the log file -/
  file : List Byte
  /-- the buffers of the objects that were made for the entry -/
  objs : List Buf
  /-- the object the log store keeps, if it still keeps one -/
  kept : Option Nat
  /-- for each thread, the object whose buffer the state machine is using in a call made by this thread -/
  using_ : Nat → Option Nat
  /-- for each thread, the object it is about to write to a socket -/
  sending : Nat → Option Nat
  /-- the bytes between the position and the end of the buffer at the beginning of each call of the state machine, latest last -/
  given : List (Nat × List Byte)
  /-- what the state machine read, and in which thread, latest last -/
  heard : List (Nat × Except Fault Seen)
  /-- the bytes that were written to sockets for the entry, latest last -/
  sent : List (Except Fault (List Byte))

/-- The entry has just been stored: `log_store::append` and `write_at` serialize it (fs_log_store.cxx 285 and 327), which sets the
position to 0 (log_entry.hxx 106), write the bytes and keep the object. -/
def World.stored (b : Buf) : World where
  file := b.data
  objs := [(seek 0 b).2]
  kept := some 0
  using_ := fun _ => none
  sending := fun _ => none
  given := []
  heard := []
  sent := []

/-- The actions. -/
inductive Act where
  /-- the log store no longer keeps the object (fs_log_store.cxx 145-148, 640, 735 and 805, or the server was restarted) -/
  | drop
  /-- a thread gets the entry and calls the state machine -/
  | enter (t : Nat)
  /-- the state machine, called by thread `t`, uses the buffer -/
  | use (t : Nat) (l : Look)
  /-- the call returns -/
  | leave (t : Nat)
  /-- a thread gets the entry in order to send it -/
  | take (u : Nat)
  /-- `get_buf().pos(0)`, asio_service.cxx 440 -/
  | rewind (u : Nat)
  /-- `entry_buf->put(get_buf())`, asio_service.cxx 441 -/
  | copy (u : Nat)
  deriving DecidableEq, Repr

/-- `fs_log_store::entry_at`, fs_log_store.cxx 441-481: the kept object, otherwise a new one made from the file. -/
def World.get (w : World) : Nat × World :=
  match w.kept with
  | some h => (h, w)
  | none => (w.objs.length, { w with objs := w.objs ++ [fresh w.file] })

/-- The buffer of an object. -/
def World.buf (w : World) (h : Nat) : Buf := w.objs.getD h (fresh w.file)

/-- Store the buffer of an object. -/
def World.put (w : World) (h : Nat) (b : Buf) : World := { w with objs := w.objs.set h b }

/-- asio_service.cxx 436-442 without line 440: the bytes of an entry in a request, with the term and the type given. The fields in
front are written before line 440 is executed, which makes no difference for them. `junk` is what the new memory holds. -/
def copyEntry (junk : Byte) (term : U64) (vtype : Byte) (b : Buf) : Except Fault Buf := do
  let buf ← alloc junk (8 + 1 + 4 + b.size)
  finish (do
    putULong term
    putByte vtype
    putInt (BitVec.ofNat 32 b.size)
    putBuf b
    seek 0) buf

/-- Functions updated at one thread. -/
def upd {α : Type} (f : Nat → α) (t : Nat) (v : α) : Nat → α := fun i => if i = t then v else f i

/-- The entry's term and type and the content of new memory; the same in a whole execution. -/
structure Ctx where
  junk : Byte
  term : U64
  vtype : Byte

/-- One step. A thread that is not at that point does nothing. -/
def World.step (c : Ctx) (w : World) : Act → World
  | .drop => { w with kept := none }
  | .enter t =>
    { w.get.2 with using_ := upd w.using_ t (some w.get.1), given := w.given ++ [(t, (w.get.2.buf w.get.1).content)] }
  | .use t l =>
    match w.using_ t with
    | none => w
    | some h => { w.put h (l.call (w.buf h)).2 with heard := w.heard ++ [(t, (l.call (w.buf h)).1)] }
  | .leave t => { w with using_ := upd w.using_ t none }
  | .take u => { w.get.2 with sending := upd w.sending u (some w.get.1) }
  | .rewind u =>
    match w.sending u with
    | none => w
    | some h => w.put h (seek 0 (w.buf h)).2
  | .copy u =>
    match w.sending u with
    | none => w
    | some h =>
      { w with sent := w.sent ++ [(copyEntry c.junk c.term c.vtype (w.buf h)).map (·.data)], sending := upd w.sending u none }

/-- Several steps. -/
def World.run (c : Ctx) (w : World) (as : List Act) : World := as.foldl (World.step c) w

theorem run_append (c : Ctx) (w : World) (as bs : List Act) : w.run c (as ++ bs) = (w.run c as).run c bs :=
  List.foldl_append

theorem run_cons (c : Ctx) (w : World) (a : Act) (bs : List Act) : w.run c (a :: bs) = (w.step c a).run c bs := rfl

/-- Sending an entry in one go is what C10 is about. -/
theorem encodeEntry_split (junk : Byte) (e : LogEntry) (b0 : Buf) (h : e.buff = some b0) (hr : Reach b0) :
    encodeEntry junk e = copyEntry junk e.term e.vtype (seek 0 b0).2 := by
  obtain ⟨d, p, ha⟩ := hr.at
  have hb : (seek 0 b0).2 = b0.setPos (min 0 d.length) := by rw [seek_run ha 0]
  have hf : finish (seek 0) b0 = .ok (b0.setPos (min 0 d.length)) := finish_ok (seek_run ha 0)
  rw [hb, encodeEntry, copyEntry, h, (seek_at ha 0).size]
  show (alloc junk (8 + 1 + 4 + b0.size) >>= fun buf => finish (seek 0) b0 >>= fun b => finish (putULong e.term >>= fun _ =>
    putByte e.vtype >>= fun _ => putInt (BitVec.ofNat 32 b0.size) >>= fun _ => putBuf b >>= fun _ => seek 0) buf) = _
  rw [ha.size]
  refine congrArg _ (funext fun buf => ?_)
  rw [hf]
  exact ok_bind _ _

end Cs.Share
