import Verif.LogStore.FullWrite

/-!
# Applying a pack when the disk is full

Model of `fs_log_store::apply_pack` (fs_log_store.cxx 567-642) with writes that fail. `Verif/LogStore/Model.lean` has it with calls that work.
`std::ostream::write` and `flush` do not throw: the stream is failed from then on, and the calls on it have no effect.

Simplifications: bytes that cannot be written fail when they are given to the stream; in the code it may be the flush of lines 608-609 that
fails, and nothing looks at the streams in between. `truncate` does not fail for other reasons than a negative length.
-/

namespace Cs.LogStore
open Cs Cs.Buffer

/-- How many bytes can still be written to the index file and to the data file; `none`: enough. -/
structure FullP where
  idx : Option Nat := none
  dat : Option Nat := none
  deriving DecidableEq, Repr

/-- `std::ostream::write`, then a flush. -/
def putRoom (room : Option Nat) (bs : List Byte) : M File Unit := modify fun f =>
  if f.bad then f else match room with
  | none => { f with bytes := overwrite f.bytes f.pos bs, pos := f.pos + bs.length }
  | some r => if bs.length ≤ r then { f with bytes := overwrite f.bytes f.pos bs, pos := f.pos + bs.length }
    else { bytes := overwrite f.bytes f.pos (bs.take r), pos := f.pos + r, bad := true }

/-- Rewriting the positions of a pack, fs_log_store.cxx 598-604. -/
def relocateF (prev first : Nat) : Option Nat → Nat → List Byte → M Store Unit
  | _, 0, _ => pure ()
  | room, n + 1, bs => do
    if bs.length < 8 then throw .thrown
    onIdx (putRoom room (le8 (BitVec.ofNat 64 ((dec8 (bs.take 8)).toNat + prev + 2 ^ 64 - first))))
    relocateF prev first (room.map (· - 8)) n (bs.drop 8)

/-- Writing the body of a pack, fs_log_store.cxx 588-607. -/
def packWriteF (w : FullP) (idxLen dataLen : Nat) (body : List Byte) : M Store Unit := do
  let prev ← onDat tell
  if body.length < 8 then throw .thrown
  if prev = (dec8 (body.take 8)).toNat then do
    if body.length < idxLen then throw .ub
    onIdx (putRoom w.idx (body.take idxLen))
  else relocateF prev (dec8 (body.take 8)).toNat w.idx ((idxLen + 7) / 8) body
  if body.length < idxLen + dataLen then throw .ub
  onDat (putRoom w.dat ((body.drop idxLen).take dataLen))

/-- Truncation, fs_log_store.cxx 610-632. -/
def packTruncF : M Store Unit := do
  let ipos ← onIdx tell
  let dpos ← onDat tell
  onIdx seekEnd
  onDat seekEnd
  let n ← onIdx tell
  if ipos < n then do
    onIdx closeW
    onDat closeW
    onIdx (truncW false ipos)
    onDat (truncW false dpos)
    onIdx reopenW
    onDat reopenW
  else pure ()

/-- `apply_pack`, fs_log_store.cxx 567-642, on the unread bytes of the pack. -/
def applyPackF (w : FullP) (index : Nat) (bs : List Byte) : M Store Unit := do
  let s ← get
  if bs.length < 4 then throw .thrown
  if bs.length < 8 then throw .thrown
  if (dec4 (bs.take 4)).toInt < 0 ∨ (dec4 ((bs.drop 4).take 4)).toInt < 0 then throw .ub
  packPos (subU64 index s.start)
  packWriteF w (dec4 (bs.take 4)).toNat (dec4 ((bs.drop 4).take 4)).toNat (bs.drop 8)
  packTruncF
  checkIO
  modify fun t => { t with count := subU64 index s.start + (dec4 (bs.take 4)).toNat / 8 }
  modify fun t => { t with cache := t.cache.reset (cacheStart t.count t.start t.bufSize) }
  fillBuffer

end Cs.LogStore
