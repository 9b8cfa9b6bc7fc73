import Verif.LogStore.Model

/-!
# Appending when the disk is full

Model of `fs_log_store::append` (fs_log_store.cxx 276-297) with writes that fail. `Verif/LogStore/Model.lean` has it with writes that work.
A stream keeps what is written to it in a buffer, so a write may fail in `operator<<` or later in `flush`.

Simplification: what `operator<<` has taken over and what does not fail is in the file at once. (If `append` ends by an exception before
line 288 the position is still in the buffer of the stream; it is written when the stream is moved or closed.)
-/

namespace Cs.LogStore
open Cs Cs.Buffer

/-- Which calls fail, with the number of bytes that have got to the file. -/
structure Full where
  /-- `idx_file_ << *idx_buf`, line 283 -/
  idxPut : Option Nat := none
  /-- `data_file_ << *entry_buf`, line 285 -/
  datPut : Option Nat := none
  /-- `idx_file_.flush()`, line 288 -/
  idxFlush : Option Nat := none
  /-- `data_file_.flush()`, line 289 -/
  datFlush : Option Nat := none
  deriving DecidableEq, Repr

/-- `operator<<(std::ostream&, buffer&)`, buffer.cxx 269-284: if `write` fails the stream is bad and there is an exception. -/
def putF (k : Option Nat) (bs : List Byte) : M File Unit := fun f => match k with
  | none => write bs f
  | some k => if f.bad then (.error .thrown, f)
    else (.error .thrown, { bytes := overwrite f.bytes f.pos (bs.take k), pos := f.pos + (bs.take k).length, bad := true })

/-- `flush()` after `n` bytes have been written at the end of the file. There is no exception. -/
def flushF (k : Option Nat) (n : Nat) : M File Unit := fun f => match k with
  | none => (.ok (), f)
  | some k => if f.bad then (.ok (), f)
    else (.ok (), { f with bytes := f.bytes.take (f.bytes.length - (n - k)), bad := true })

/-- `append`, fs_log_store.cxx 276-297. -/
def appendF (w : Full) (e : Ent) : M Store Nat := do
  onIdx seekEnd
  onDat seekEnd
  let p ← onDat tell
  onIdx (putF w.idxPut (le8 (BitVec.ofNat 64 p)))
  let bs ← lift (serialize e)
  onDat (putF w.datPut bs)
  modify fun s => { s with cache := s.cache.append e, count := s.count + 1 }
  onIdx (flushF w.idxFlush 8)
  onDat (flushF w.datFlush bs.length)
  checkIO
  let s ← get
  pure (s.start + s.count - 1)

end Cs.LogStore
