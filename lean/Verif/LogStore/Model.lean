import Verif.Base
import Verif.Buffer.Ops

/-!
# Model of the file based log store, `src/fs_log_store.cxx`, `include/fs_log_store.hxx`

Three files (positions, data, start index) with the stream state of `std::fstream`, and the in-memory cache.

Simplifications, for the whole file:
* A log entry is its observable content (term, type, payload bytes). `Ent.bytes` is what `log_entry::serialize` produces
  and `decode` what `log_entry::deserialize` reads, see `Verif/LogStore/Link.lean` for the link to the buffer level model.
* `ulong` is `Nat`; subtractions that may wrap use `subU64`, sums are assumed not to reach 2^64.
* Opening, creating, truncating and removing files, and writing to them, never fail. `compact` is modelled with
  failing calls and its error branch (810-849) in `Verif/LogStore/Disk.lean`.
* Locks are not modelled: every call runs alone.
* The host is little-endian (`apply_pack` writes integers as they are in memory).
-/

namespace Cs.LogStore
open Cs Cs.Buffer

/-! ## Entries -/

/-- A log entry: term, `log_val_type`, payload. -/
structure Ent where
  term : U64
  vtype : Byte
  data : List Byte
  deriving DecidableEq, Repr

/-- The bytes of `log_entry::serialize`, log_entry.hxx 104-113. -/
def Ent.bytes (e : Ent) : List Byte := le8 e.term ++ (e.vtype :: e.data)

/-- `log_entry::serialize`: `buffer::alloc` throws for 2^31 bytes and more. -/
def serialize (e : Ent) : Except Fault (List Byte) :=
  if 2 ^ 31 ≤ 8 + 1 + e.data.length then .error .thrown else .ok e.bytes

/-- `log_entry::deserialize`, log_entry.hxx 115-121, on a whole buffer: throws when the term or the type is missing. -/
def decode (bs : List Byte) : Except Fault Ent :=
  if bs.length < 9 then .error .thrown
  else .ok { term := dec8 (bs.take 8), vtype := bs.getD 8 0, data := bs.drop 9 }

/-- `empty_entry`, fs_log_store.cxx 77; `log_val_type::app_log` is 1. -/
def emptyEntry : Ent := ⟨0, 1, []⟩

/-! ## Streams -/

/-- A `std::fstream` open for reading and writing: the bytes of the file, the (joint) position, and `failbit`/`badbit`. -/
structure File where
  bytes : List Byte
  pos : Nat
  bad : Bool
  deriving DecidableEq, Repr

/-- `open(.., in | out | binary | ate)` of an existing file. -/
def File.opened (bytes : List Byte) : File := ⟨bytes, bytes.length, false⟩

/-- `seekg(p)` / `seekp(p)`: no effect on a failed stream; a negative offset fails. -/
def seek (p : Nat) : M File Unit := do
  let f ← get
  if f.bad then pure ()
  else if 2 ^ 63 ≤ p then set { f with bad := true }
  else set { f with pos := p }

/-- `seekg(0, end)` / `seekp(0, end)`. -/
def seekEnd : M File Unit := modify fun f => if f.bad then f else { f with pos := f.bytes.length }

/-- `tellg()` / `tellp()` converted to `ulong`: -1 on a failed stream. -/
def tell : M File Nat := do
  let f ← get
  pure (if f.bad then 2 ^ 64 - 1 else f.pos)

/-- `operator>>(std::istream&, buffer&)`, buffer.cxx 286-303, into a buffer of `n` bytes. A short read sets the failbit,
which stays. -/
def read (n : Nat) : M File (List Byte) := do
  let f ← get
  if f.bad then throw .thrown
  else if f.pos + n ≤ f.bytes.length then do
    set { f with pos := f.pos + n }
    pure ((f.bytes.drop f.pos).take n)
  else do
    set { f with bad := true }
    throw .thrown

/-- Bytes `bs` at position `p` of a file; a gap is filled with zeros. -/
def overwrite (l : List Byte) (p : Nat) (bs : List Byte) : List Byte :=
  l.take p ++ List.replicate (p - l.length) 0 ++ bs ++ l.drop (p + bs.length)

/-- `operator<<(std::ostream&, buffer&)`, buffer.cxx 269-284. -/
def write (bs : List Byte) : M File Unit := do
  let f ← get
  if f.bad then throw .thrown
  else set { f with bytes := overwrite f.bytes f.pos bs, pos := f.pos + bs.length }

/-- `std::ostream::write`: no exception on a failed stream, nothing is written. -/
def writeRaw (bs : List Byte) : M File Unit :=
  modify fun f => if f.bad then f else { f with bytes := overwrite f.bytes f.pos bs, pos := f.pos + bs.length }

/-- `close()`, `truncate(path, n)`, `open(.., ate)`; extending pads with zeros. -/
def truncateReopen (n : Nat) : M File Unit :=
  modify fun f => File.opened (f.bytes.take n ++ List.replicate (n - f.bytes.length) 0)

/-- `bufptr b(buffer::alloc(n)); file >> *b;` -/
def readBlock (n : Nat) : M File (List Byte) :=
  if 2 ^ 31 ≤ n then throw .thrown else read n

/-- `bufptr b(buffer::alloc(sz_ulong)); file >> *b; b->get_ulong()` -/
def readULong : M File Nat := do
  let bs ← readBlock 8
  pure (dec8 bs).toNat

/-- Conversion to `int` and then to an unsigned 64-bit size. -/
def intSize (n : Nat) : Nat := ((BitVec.ofNat 32 n).signExtend 64).toNat

/-! ## The cache -/

/-- `log_store_buffer`, fs_log_store.hxx 28-85. -/
structure Cache where
  first : Nat
  buf : List Ent
  max : Nat
  deriving DecidableEq, Repr

/-- `operator[]`, fs_log_store.cxx 79-89. -/
def Cache.at (c : Cache) (idx : Nat) : Option Ent := if idx < c.first then none else c.buf[idx - c.first]?

/-- `last_entry`, fs_log_store.hxx 47-54. -/
def Cache.last (c : Cache) : Option Ent := c.buf.getLast?

/-- `fill`, fs_log_store.cxx 91-123; `none` in the result is a placeholder. Reading the vector outside its range is
undefined behaviour. The conversions to `int` are left out (a cache has fewer than 2^31 entries). -/
def Cache.fill (c : Cache) (start end_ : Nat) : Except Fault (List (Option Ent)) :=
  if end_ < c.first then .ok []
  else if c.first < start then
    if start - c.first + (end_ - start) ≤ c.buf.length then
      .ok (((c.buf.drop (start - c.first)).take (end_ - start)).map some)
    else .error .ub
  else if end_ - c.first ≤ c.buf.length then
    .ok (List.replicate (c.first - start) none ++ (c.buf.take (end_ - c.first)).map some)
  else .error .ub

/-- `trim`, fs_log_store.cxx 125-139. -/
def Cache.trim (c : Cache) (start : Nat) : Cache :=
  if start < c.first then c else { c with buf := c.buf.take (start - c.first) }

/-- `append`, fs_log_store.cxx 141-150. -/
def Cache.append (c : Cache) (e : Ent) : Cache :=
  if c.max < (c.buf ++ [e]).length then { c with buf := (c.buf ++ [e]).drop 1, first := c.first + 1 }
  else { c with buf := c.buf ++ [e] }

/-- `reset`, fs_log_store.hxx 75-79. -/
def Cache.reset (c : Cache) (start : Nat) : Cache := { c with buf := [], first := start }

/-! ## The store -/

/-- `fs_log_store`, fs_log_store.hxx 87-191. -/
structure Store where
  idx : File
  dat : File
  sti : File
  count : Nat
  start : Nat
  cache : Cache
  bufSize : Nat
  deriving DecidableEq, Repr

/-- Run a stream operation on the index file. -/
def onIdx {α : Type} (m : M File α) : M Store α := fun s => ((m s.idx).1, { s with idx := (m s.idx).2 })
/-- Run a stream operation on the data file. -/
def onDat {α : Type} (m : M File α) : M Store α := fun s => ((m s.dat).1, { s with dat := (m s.dat).2 })
/-- Run a stream operation on the start index file. -/
def onSti {α : Type} (m : M File α) : M Store α := fun s => ((m s.sti).1, { s with sti := (m s.sti).2 })

/-- `if (!data_file_ || !idx_file_) throw` -/
def checkIO : M Store Unit := do
  let s ← get
  if s.dat.bad ∨ s.idx.bad then throw .thrown

/-- Lift a result. -/
def lift {α : Type} (x : Except Fault α) : M Store α := liftM (n := M Store) (m := Except Fault) x

/-- The loop of `fill_buffer`, fs_log_store.cxx 874-882, over the unread part of `idx_buf`; returns `data_start`. -/
def fillLoop (dataStart : Nat) : List Byte → M Store Nat
  | b0 :: b1 :: b2 :: b3 :: b4 :: b5 :: b6 :: b7 :: rest => do
    let bs ← onDat (readBlock (subU64 (dec8 [b0, b1, b2, b3, b4, b5, b6, b7]).toNat dataStart))
    let e ← lift (decode bs)
    modify fun s => { s with cache := s.cache.append e }
    fillLoop (dec8 [b0, b1, b2, b3, b4, b5, b6, b7]).toNat rest
  | [] => pure dataStart
  | _ => throw .thrown

/-- `fill_buffer` once the positions have been read, fs_log_store.cxx 872-887. -/
def fillFrom (dataLen : Nat) (idxBuf : List Byte) : M Store Unit := do
  if idxBuf.length < 8 then throw .thrown
  onDat (seek (dec8 (idxBuf.take 8)).toNat)
  let dataStart ← fillLoop (dec8 (idxBuf.take 8)).toNat (idxBuf.drop 8)
  let bs ← onDat (readBlock (subU64 dataLen dataStart))
  let e ← lift (decode bs)
  modify fun s => { s with cache := s.cache.append e }

/-- `fill_buffer`, fs_log_store.cxx 859-889. `tellg() > 0` compares the signed value. -/
def fillBuffer : M Store Unit := do
  onIdx seekEnd
  onDat seekEnd
  let s ← get
  let idxLen ← onIdx tell
  let dataLen ← onDat tell
  if 0 < idxLen ∧ idxLen < 2 ^ 63 then do
    onIdx (seek (subU64 s.cache.first s.start * 8))
    let idxBuf ← onIdx (readBlock (subU64 idxLen (subU64 s.cache.first s.start * 8)))
    fillFrom dataLen idxBuf
  else pure ()

/-- First cached index chosen at 248-249, 640 and 805. -/
def cacheStart (count start bufSize : Nat) : Nat := if bufSize < count then count + start - bufSize else start

/-- `buf_size < 0 ? INT_MAX : buf_size`, fs_log_store.cxx 180. -/
def effBufSize (n : Int) : Nat := if n < 0 then 2 ^ 31 - 1 else n.toNat

/-- The content of the three files. -/
structure Disk where
  idx : List Byte
  dat : List Byte
  sti : List Byte
  deriving DecidableEq, Repr

/-- The files of a directory where no store has been yet. -/
def Disk.none : Disk := ⟨[], [], []⟩

/-- Body of the constructor after opening the files, fs_log_store.cxx 228-250. -/
def init (bufSize : Nat) : M Store Unit := do
  let p ← onSti tell
  if 0 < p ∧ p < 2 ^ 63 then do
    onSti (seek 0)
    let st ← onSti readULong
    let n ← onIdx tell
    modify fun s => { s with start := st, count := n / 8 }
  else do
    onSti (seek 0)
    onSti (write (le8 1))
    modify fun s => { s with start := 1, count := 0 }
  modify fun s => { s with cache := ⟨cacheStart s.count s.start bufSize, [], bufSize⟩ }
  fillBuffer

/-- Opening a store on a directory, fs_log_store.cxx 171-251. Files that do not exist are created empty. -/
def openOn (d : Disk) (bufSize : Int) : Except Fault Store :=
  match init (effBufSize bufSize)
    { idx := File.opened d.idx, dat := File.opened d.dat, sti := File.opened d.sti, count := 0, start := 1,
      cache := ⟨1, [], effBufSize bufSize⟩, bufSize := effBufSize bufSize } with
  | (.ok _, s) => .ok s
  | (.error e, _) => .error e

/-- The files a store leaves when the process ends after all writes have been flushed. -/
def Store.disk (s : Store) : Disk := ⟨s.idx.bytes, s.dat.bytes, s.sti.bytes⟩

/-- `next_slot`, fs_log_store.cxx 253-257. -/
def nextSlot : M Store Nat := do
  let s ← get
  pure (s.start + s.count)

/-- `start_index`, fs_log_store.cxx 259-263. -/
def startIndex : M Store Nat := do
  let s ← get
  pure s.start

/-- `last_entry`, fs_log_store.cxx 265-274. -/
def lastEntry : M Store Ent := do
  let s ← get
  pure (s.cache.last.getD emptyEntry)

/-- `append`, fs_log_store.cxx 276-297. -/
def append (e : Ent) : M Store Nat := do
  onIdx seekEnd
  onDat seekEnd
  let p ← onDat tell
  onIdx (write (le8 (BitVec.ofNat 64 p)))
  let bs ← lift (serialize e)
  onDat (write bs)
  modify fun s => { s with cache := s.cache.append e, count := s.count + 1 }
  checkIO
  let s ← get
  pure (s.start + s.count - 1)

/-- Positioning the data file for `write_at`, fs_log_store.cxx 309-319; `local_` is one based. -/
def writePos (local_ : Nat) : M Store Unit := do
  let s ← get
  if local_ ≤ s.count then do
    onIdx (seek ((local_ - 1) * 8))
    let p ← onIdx readULong
    onDat (seek p)
  else onDat seekEnd

/-- Truncating both files when the index file is longer than what has been written, fs_log_store.cxx 332-354. -/
def truncIfLonger : M Store Unit := do
  let ndata ← onDat tell
  let nidx ← onIdx tell
  onIdx seekEnd
  let n ← onIdx tell
  if nidx < n then do
    onIdx (truncateReopen nidx)
    onDat (truncateReopen ndata)
  else pure ()

/-- `write_at`, fs_log_store.cxx 299-367. -/
def writeAt (index : Nat) (e : Ent) : M Store Unit := do
  let s ← get
  if index < s.start ∨ s.start + s.count < index then throw .thrown
  writePos (index - s.start + 1)
  onIdx (seek ((index - s.start + 1 - 1) * 8))
  let dataPos ← onDat tell
  onIdx (write (le8 (BitVec.ofNat 64 dataPos)))
  let bs ← lift (serialize e)
  onDat (write bs)
  truncIfLonger
  modify fun t => { t with cache := (if index - s.start + 1 ≤ t.count then t.cache.trim index else t.cache).append e,
                           count := index - s.start + 1 }
  checkIO

/-- The loop of `log_entries`, fs_log_store.cxx 416-435; `n` entries starting at data position `dataStart`. -/
def readRange : Nat → Nat → M Store (List Ent)
  | 0, _ => pure []
  | n + 1, dataStart => do
    let dataEnd ← onIdx readULong
    onDat (seek dataStart)
    let bs ← onDat (readBlock (intSize (subU64 dataEnd dataStart)))
    let e ← lift (decode bs)
    let es ← readRange n dataEnd
    pure (e :: es)

/-- Storing the entries read from the file over the first places of `results`, or appending them, 425-432. -/
def placeAll (results : List (Option Ent)) (es : List Ent) : List (Option Ent) :=
  es.map some ++ results.drop es.length

/-- The part of `log_entries` that reads the files, fs_log_store.cxx 404-435. -/
def readFiles (start : Nat) (results : List (Option Ent)) : M Store (List (Option Ent)) := do
  checkIO
  let s ← get
  onIdx (seek ((start - s.start) * 8))
  let dataStart ← onIdx readULong
  let es ← readRange (s.cache.first - s.start - (start - s.start)) dataStart
  pure (placeAll results es)

/-- `log_entries`, fs_log_store.cxx 369-439; the outer `none` is the nil result. -/
def logEntries (start end_ : Nat) : M Store (Option (List (Option Ent))) := do
  let s ← get
  if start < s.start then throw .thrown
  else if end_ ≤ start ∨ s.start + s.count ≤ start then pure none
  else do
    let results ← lift (s.cache.fill start (min (end_ - s.start) s.count + s.start))
    if start < s.cache.first then do
      let r ← readFiles start results
      pure (some r)
    else pure (some results)

/-- `entry_at`, fs_log_store.cxx 441-481; `none` is the nil result. -/
def entryAt (index : Nat) : M Store (Option Ent) := do
  let s ← get
  match s.cache.at index with
  | some e => pure (some e)
  | none => do
    if index < s.start then throw .thrown
    checkIO
    if s.start + s.count ≤ index then pure none
    else do
      onIdx (seek ((index - s.start) * 8))
      let p ← onIdx readULong
      let q ← onIdx readULong
      onDat (seek p)
      let bs ← onDat (readBlock (intSize (subU64 q p)))
      let e ← lift (decode bs)
      pure (some e)

/-- `term_at`, fs_log_store.cxx 483-513. -/
def termAt (index : Nat) : M Store U64 := do
  let s ← get
  if s.cache.first ≤ index ∧ index < s.cache.first + s.cache.buf.length then
    pure (match s.cache.at index with | some e => e.term | none => 0)
  else do
    if index < s.start then throw .thrown
    checkIO
    onIdx (seek (intSize (index - s.start) * 8 % 2 ^ 64))
    let p ← onIdx readULong
    onDat (seek p)
    let bs ← onDat (readBlock 8)
    pure (dec8 bs)

/-- The end of the data to be packed, fs_log_store.cxx 539-550; `off` is `end_offset`. -/
def packEnd (off : Nat) : M Store Nat := do
  let s ← get
  if off = s.count then do
    onDat seekEnd
    onDat tell
  else onIdx readULong

/-- `std::min(offset + cnt, entries_in_store_)`, fs_log_store.cxx 534: the `int32` is added to an unsigned number. -/
def endOffset (off : Nat) (cnt : Int) (count : Nat) : Nat := min (((off : Int) + cnt) % 2 ^ 64).toNat count

/-- `pack`, fs_log_store.cxx 515-565: the bytes of the returned buffer. -/
def pack (index : Nat) (cnt : Int) : M Store (List Byte) := do
  let s ← get
  if index < s.start then throw .thrown
  checkIO
  if s.count ≤ index - s.start then pure []
  else do
    onIdx (seek (intSize (index - s.start) * 8 % 2 ^ 64))
    let idxBuf ← onIdx (readBlock (intSize (subU64 (endOffset (index - s.start) cnt s.count) (index - s.start)) * 8 % 2 ^ 64))
    let endOfData ← packEnd (endOffset (index - s.start) cnt s.count)
    if idxBuf.length < 8 then throw .thrown
    onDat (seek (dec8 (idxBuf.take 8)).toNat)
    let dataBuf ← onDat (readBlock (intSize (subU64 endOfData (dec8 (idxBuf.take 8)).toNat)))
    if 2 ^ 31 ≤ 2 * 4 + idxBuf.length + dataBuf.length then throw .thrown
    pure (le4 (BitVec.ofNat 32 idxBuf.length) ++ (le4 (BitVec.ofNat 32 dataBuf.length) ++ (idxBuf ++ dataBuf)))

/-- Rewriting the positions of a pack by `+ prev - first`, fs_log_store.cxx 598-604: `n` positions from the bytes. -/
def relocate (prev first : Nat) : Nat → List Byte → M Store Unit
  | 0, _ => pure ()
  | n + 1, bs => do
    if bs.length < 8 then throw .thrown
    onIdx (writeRaw (le8 (BitVec.ofNat 64 ((dec8 (bs.take 8)).toNat + prev + 2 ^ 64 - first))))
    relocate prev first n (bs.drop 8)

/-- Positioning both files for `apply_pack`, fs_log_store.cxx 572-586. -/
def packPos (local_ : Nat) : M Store Unit := do
  let s ← get
  if local_ = s.count then do
    onIdx seekEnd
    onDat seekEnd
  else do
    onIdx (seek (local_ * 8 % 2 ^ 64))
    let p ← onIdx readULong
    onIdx (seek (local_ * 8 % 2 ^ 64))
    onDat (seek p)

/-- Writing the body of a pack, fs_log_store.cxx 588-607; the body is what follows the two lengths. Writing more bytes
than the pack has is undefined behaviour. -/
def packWrite (idxLen dataLen : Nat) (body : List Byte) : M Store Unit := do
  let prev ← onDat tell
  if body.length < 8 then throw .thrown
  if prev = (dec8 (body.take 8)).toNat then do
    if body.length < idxLen then throw .ub
    onIdx (writeRaw (body.take idxLen))
  else relocate prev (dec8 (body.take 8)).toNat ((idxLen + 7) / 8) body
  if body.length < idxLen + dataLen then throw .ub
  onDat (writeRaw ((body.drop idxLen).take dataLen))

/-- Truncation after `apply_pack`, fs_log_store.cxx 610-632. -/
def packTrunc : M Store Unit := do
  let ipos ← onIdx tell
  let dpos ← onDat tell
  onIdx seekEnd
  onDat seekEnd
  let n ← onIdx tell
  if ipos < n then do
    onIdx (truncateReopen ipos)
    onDat (truncateReopen dpos)
  else pure ()

/-- `apply_pack`, fs_log_store.cxx 567-642, on the unread bytes of the pack. Negative lengths are not modelled further:
undefined behaviour. -/
def applyPack (index : Nat) (bs : List Byte) : M Store Unit := do
  let s ← get
  if bs.length < 4 then throw .thrown
  if bs.length < 8 then throw .thrown
  if (dec4 (bs.take 4)).toInt < 0 ∨ (dec4 ((bs.drop 4).take 4)).toInt < 0 then throw .ub
  packPos (subU64 index s.start)
  packWrite (dec4 (bs.take 4)).toNat (dec4 ((bs.drop 4).take 4)).toNat (bs.drop 8)
  packTrunc
  checkIO
  modify fun t => { t with count := subU64 index s.start + (dec4 (bs.take 4)).toNat / 8 }
  modify fun t => { t with cache := t.cache.reset (cacheStart t.count t.start t.bufSize) }
  fillBuffer

/-- Replace the content of a file by removing and creating it, or rewriting it, and open it again. -/
def recreate (bs : List Byte) : M File Unit := set (File.opened bs)

/-- Clearing the store, fs_log_store.cxx 706-742. -/
def compactAll (last : Nat) : M Store Unit := do
  onIdx (recreate [])
  onDat (recreate [])
  onSti (seek 0)
  onSti (write (le8 (BitVec.ofNat 64 (last + 1))))
  modify fun s => { s with start := last + 1, count := 0, cache := s.cache.reset (last + 1) }

/-- Positions of the compacted index file, fs_log_store.cxx 773-782: `n` positions of the backup, less `base`. -/
def shiftPos (base : Nat) : Nat → List Byte → Except Fault (List Byte)
  | 0, _ => .ok []
  | n + 1, bs =>
    if bs.length < 8 then .error .thrown
    else do
      let rest ← shiftPos base n (bs.drop 8)
      pure (le8 (BitVec.ofNat 64 (subU64 (dec8 (bs.take 8)).toNat base)) ++ rest)

/-- Removing a proper prefix of the log, fs_log_store.cxx 744-807. The backups hold the content the files had. -/
def compactPart (last : Nat) : M Store Unit := do
  let s ← get
  onIdx (seek ((last - s.start + 1) * 8))
  let dataPos ← onIdx readULong
  onIdx seekEnd
  onDat seekEnd
  onDat (seek 0)
  onDat (write (s.dat.bytes.drop dataPos))
  onDat (truncateReopen (subU64 s.dat.bytes.length dataPos))
  onIdx (seek 0)
  let pos ← lift (shiftPos dataPos ((s.idx.bytes.length - (last - s.start + 1) * 8) / 8)
    (s.idx.bytes.drop ((last - s.start + 1) * 8)))
  onIdx (write pos)
  onIdx (truncateReopen (s.idx.bytes.length - (last - s.start + 1) * 8))
  onSti (seek 0)
  onSti (write (le8 (BitVec.ofNat 64 (last + 1))))
  modify fun t => { t with count := t.count - (last - t.start + 1) }
  modify fun t => { t with start := last + 1 }
  modify fun t => { t with cache := t.cache.reset (cacheStart t.count t.start t.bufSize) }
  fillBuffer

/-- `compact`, fs_log_store.cxx 644-808. -/
def compact (last : Nat) : M Store Bool := do
  let s ← get
  if last < s.start then throw .thrown
  if s.start + s.count - 1 ≤ last then compactAll last
  else compactPart last
  pure true

end Cs.LogStore
