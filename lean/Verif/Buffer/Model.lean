import Verif.Base

/-!
# Model of `src/buffer.cxx`

A buffer is one memory block: a header followed by the data bytes. Blocks of less than 0x8000 bytes have a header of
two `ushort` (size, position), larger ones a header of two `uint` (size with bit 31 set, position).
The host is little-endian, so the first `uint` of a small block is `position * 2^16 + size`.
-/

namespace Cs.Buffer
open Cs

/-- A memory block. `w0` is the first `uint` of the block (for small blocks it holds both `ushort`s), `w1` the second
`uint` (meaningful for big blocks only; for small blocks these bytes already belong to the data and `w1` is unused).
`data` are the bytes behind the header; its length is the number of bytes really allocated there. -/
structure Buf where
  w0 : BitVec 32
  w1 : BitVec 32
  data : List Byte
  deriving DecidableEq, Repr

abbrev BM := M Buf

/-- `__is_big_block`, buffer.cxx 21. -/
def Buf.isBig (b : Buf) : Bool := (0x80000000#32 &&& b.w0) != 0#32

/-- `((ushort*)p)[0]`. -/
def Buf.s0 (b : Buf) : BitVec 16 := b.w0.setWidth 16
/-- `((ushort*)p)[1]`. -/
def Buf.s1 (b : Buf) : BitVec 16 := (b.w0 >>> 16).setWidth 16

/-- `__size_of_block`, buffer.cxx 31; `buffer::size`, 93-96. -/
def Buf.size (b : Buf) : Nat := if b.isBig then (b.w0 ^^^ 0x80000000#32).toNat else b.s0.toNat

/-- `__pos_of_block`, buffer.cxx 29-32; `buffer::pos() const`, 98-101. -/
def Buf.pos (b : Buf) : Nat := if b.isBig then b.w1.toNat else b.s1.toNat

/-- `__set_block_pos`, buffer.cxx 42-50. -/
def Buf.setPos (b : Buf) (p : Nat) : Buf :=
  if b.isBig then { b with w1 := BitVec.ofNat 32 p }
  else { b with w0 := (BitVec.ofNat 16 p ++ b.s0 : BitVec 32) }

/-- `__mv_fw_block`, buffer.cxx 33-41. -/
def Buf.mvFw (b : Buf) (d : Nat) : Buf :=
  if b.isBig then { b with w1 := b.w1 + BitVec.ofNat 32 d }
  else { b with w0 := (b.s1 + BitVec.ofNat 16 d ++ b.s0 : BitVec 32) }

/-- `buffer::alloc`, buffer.cxx 64-83. `new char[]` leaves the bytes uninitialised; every one of them is modelled by the
same arbitrary byte `junk`. Allocation failure is not modelled. -/
def alloc (junk : Byte) (size : Nat) : Except Fault Buf :=
  if size ≥ 0x80000000 then .error .thrown
  else if size ≥ 0x8000 then
    .ok { w0 := BitVec.ofNat 32 size ||| 0x80000000#32, w1 := 0#32, data := List.replicate size junk }
  else
    .ok { w0 := (0#16 ++ BitVec.ofNat 16 size : BitVec 32), w1 := 0#32, data := List.replicate size junk }

/-- `data()[off .. off+len)`, buffer.cxx 51-53 and 103-106: a read at the current position plus `off`;
outside the allocated bytes it is undefined behaviour. -/
def readAt (off len : Nat) : BM (List Byte) := do
  let b ← get
  if b.pos + off + len ≤ b.data.length then pure ((b.data.drop (b.pos + off)).take len)
  else throw .ub

/-- Overwrite `bs.length` elements of `l` from index `at_`. -/
def splice (l : List Byte) (at_ : Nat) (bs : List Byte) : List Byte :=
  l.take at_ ++ bs ++ l.drop (at_ + bs.length)

/-- Store bytes at `data()`; outside the allocated bytes it is undefined behaviour. -/
def writeHere (bs : List Byte) : BM Unit := do
  let b ← get
  if b.pos + bs.length ≤ b.data.length then set { b with data := splice b.data b.pos bs }
  else throw .ub

/-- `size() - pos()` on `size_t`. -/
def Buf.avail (b : Buf) : Nat := subU64 b.size b.pos

/-- `buffer::get_int`, buffer.cxx 108-126. -/
def getInt : BM I32 := do
  let b ← get
  if b.avail < 4 then throw .thrown
  let bs ← readAt 0 4
  let val := (List.range 4).foldl (fun v i => v + (((bs.getD i 0).setWidth 32 : BitVec 32) <<< (i * 8))) 0#32
  modify (·.mvFw 4)
  pure val

/-- `buffer::get_ulong`, buffer.cxx 128-146. -/
def getULong : BM U64 := do
  let b ← get
  if b.avail < 8 then throw .thrown
  let bs ← readAt 0 8
  let val := (List.range 8).foldl (fun v i => v + (((bs.getD i 0).setWidth 64 : BitVec 64) <<< (i * 8))) 0#64
  modify (·.mvFw 8)
  pure val

/-- `buffer::get_byte`, buffer.cxx 148-159. -/
def getByte : BM Byte := do
  let b ← get
  if b.avail < 1 then throw .thrown
  let bs ← readAt 0 1
  modify (·.mvFw 1)
  pure (bs.getD 0 0)

/-- `buffer::pos(size_t)`, buffer.cxx 161-165. -/
def seek (p : Nat) : BM Unit := do
  let b ← get
  let position := if p > b.size then b.size else p
  modify (·.setPos position)

/-- The scanning loop of `buffer::get_str`, buffer.cxx 169-174: the final value of `i`.
`fuel` bounds the number of iterations; `size()` iterations always suffice. -/
def strScan (b : Buf) : Nat → Nat → Except Fault Nat
  | 0, i => .ok i
  | fuel + 1, i =>
    if b.pos + i < b.size then
      match b.data[b.pos + i]? with
      | none => .error .ub
      | some c => if c = 0 then .ok i else strScan b fuel (i + 1)
    else .ok i

/-- `buffer::get_str`, buffer.cxx 167-182. The returned `const char*` is represented by the characters up to the NUL. -/
def getStr : BM (Option (List Byte)) := do
  let b ← get
  let i ← liftM (n := BM) (m := Except Fault) (strScan b (b.size + 1) 0)
  if b.pos + i ≥ b.size ∨ i = 0 then pure none
  else do
    let r ← readAt 0 i
    modify (·.mvFw (i + 1))
    pure (some r)

/-- `buffer::put(byte)`, buffer.cxx 184-194. -/
def putByte (v : Byte) : BM Unit := do
  let b ← get
  if b.avail < 1 then throw .thrown
  writeHere [v]
  modify (·.mvFw 1)

/-- `buffer::put(int32)`, buffer.cxx 196-210. -/
def putInt (v : I32) : BM Unit := do
  let b ← get
  if b.avail < 4 then throw .thrown
  writeHere ((List.range 4).map fun i => (v.sshiftRight (i * 8)).setWidth 8)
  modify (·.mvFw 4)

/-- `buffer::put(ulong)`, buffer.cxx 212-226. -/
def putULong (v : U64) : BM Unit := do
  let b ← get
  if b.avail < 8 then throw .thrown
  writeHere ((List.range 8).map fun i => (v >>> (i * 8)).setWidth 8)
  modify (·.mvFw 8)

/-- `buffer::put(const std::string&)`, buffer.cxx 228-243. -/
def putStr (s : List Byte) : BM Unit := do
  let b ← get
  if b.avail < s.length + 1 then throw .thrown
  writeHere (s ++ [0])
  modify (·.mvFw (s.length + 1))

/-- `buffer::get(bufptr& dst)`, buffer.cxx 245-250: no check of the source. Returns the destination. -/
def getBuf (dst : Buf) : BM Buf := do
  let sz := dst.avail
  let bs ← readAt 0 sz
  if dst.pos + sz ≤ dst.data.length then do
    modify (·.mvFw sz)
    pure { dst with data := splice dst.data dst.pos bs }
  else throw .ub

/-- `buffer::put(const buffer&)`, buffer.cxx 252-267. -/
def putBuf (src : Buf) : BM Unit := do
  let b ← get
  let n := src.avail
  if b.avail < n then throw .thrown
  if src.pos + n ≤ src.data.length then
    writeHere ((src.data.drop src.pos).take n)
  else throw .ub
  modify (·.mvFw n)

/-- Run a writer on a local buffer and return that buffer (`...; return buf;`). -/
def finish (m : BM Unit) (b : Buf) : Except Fault Buf :=
  match m b with
  | (.ok _, b') => .ok b'
  | (.error e, _) => .error e

/-- `buffer::copy`, buffer.cxx 85-91. -/
def copy (junk : Byte) (src : Buf) : Except Fault Buf := do
  let other ← alloc junk src.avail
  finish (do putBuf src; seek 0) other

end Cs.Buffer
