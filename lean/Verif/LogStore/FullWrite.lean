import Verif.LogStore.Full

/-!
# Overwriting when a call fails

Model of `fs_log_store::write_at` (fs_log_store.cxx 299-367) with writes and truncations that fail. `Verif/LogStore/Model.lean` has it with
calls that work.

Simplifications: as in `Verif/LogStore/Full.lean`, what `operator<<` has taken over is in the file at once, and what a later `flush` fails to
write is not there from the beginning. A stream that has been closed is one that has failed: every call on it fails.
-/

namespace Cs.LogStore
open Cs Cs.Buffer

/-- Which calls of `write_at` fail; for writes with the number of bytes that have got to the file. -/
structure FullW where
  /-- `idx_file_ << *ibuf`, line 326 -/
  idxPut : Option Nat := none
  /-- `data_file_ << *ebuf`, line 328 -/
  datPut : Option Nat := none
  /-- `idx_file_.flush()`, line 329 -/
  idxFlush : Option Nat := none
  /-- `data_file_.flush()`, line 330 -/
  datFlush : Option Nat := none
  /-- `truncate(idx_path, ..)`, line 342 -/
  idxTrunc : Bool := false
  /-- `truncate(data_path, ..)`, line 347 -/
  datTrunc : Bool := false
  deriving DecidableEq, Repr

/-- What gets to the file of bytes that a flush writes. -/
def keptW (k : Option Nat) (bs : List Byte) : List Byte := match k with
  | none => bs
  | some k => bs.take k

/-- `operator<<`; `fl` is the flush after it. -/
def putW (k fl : Option Nat) (bs : List Byte) : M File Unit := fun f => match k with
  | some k => putF (some k) bs f
  | none => if f.bad then (.error .thrown, f)
    else (.ok (), { bytes := overwrite f.bytes f.pos (keptW fl bs), pos := f.pos + bs.length, bad := false })

/-- `flush()`: no exception, the stream has failed. -/
def flushW (fl : Option Nat) : M File Unit := modify fun f => { f with bad := f.bad || fl.isSome }

/-- `close()` -/
def closeW : M File Unit := modify fun f => { f with bad := true }

/-- `truncate(path, n)` of a closed file, lines 342 and 347: a negative length is refused. -/
def truncW (fails : Bool) (n : Nat) : M File Unit := fun f =>
  if fails ∨ 2 ^ 63 ≤ n then (.error .thrown, f) else (.ok (), { f with bytes := f.bytes.take n ++ List.replicate (n - f.bytes.length) 0 })

/-- `open(.., ate)` -/
def reopenW : M File Unit := modify fun f => File.opened f.bytes

/-- Cutting off the files, fs_log_store.cxx 332-354. -/
def truncIfLongerW (w : FullW) : M Store Unit := do
  let ndata ← onDat tell
  let nidx ← onIdx tell
  onIdx seekEnd
  let n ← onIdx tell
  if nidx < n then do
    onIdx closeW
    onDat closeW
    onIdx (truncW w.idxTrunc nidx)
    onDat (truncW w.datTrunc ndata)
    onIdx reopenW
    onDat reopenW
  else pure ()

/-- `write_at`, fs_log_store.cxx 299-367. -/
def writeAtF (w : FullW) (index : Nat) (e : Ent) : M Store Unit := do
  let s ← get
  if index < s.start ∨ s.start + s.count < index then throw .thrown
  writePos (index - s.start + 1)
  onIdx (seek ((index - s.start + 1 - 1) * 8))
  let dataPos ← onDat tell
  onIdx (putW w.idxPut w.idxFlush (le8 (BitVec.ofNat 64 dataPos)))
  let bs ← lift (serialize e)
  onDat (putW w.datPut w.datFlush bs)
  onIdx (flushW w.idxFlush)
  onDat (flushW w.datFlush)
  truncIfLongerW w
  modify fun t => { t with cache := (if index - s.start + 1 ≤ t.count then t.cache.trim index else t.cache).append e,
                           count := index - s.start + 1 }
  checkIO

end Cs.LogStore
