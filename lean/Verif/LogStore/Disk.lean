import Verif.LogStore.Spec

/-!
# Model of `fs_log_store::compact` on a file system whose operations can fail

`Verif/LogStore/Model.lean` models `compact` without its error branch. Here `compact`, fs_log_store.cxx 644-850, is modelled again
as a whole: with the backup files, with calls that fail, and with the code that is to restore the files.

Simplifications, for the whole file:
* What fails is given by `Env`, by the line of the call: `std::remove`, `truncate` and `open` report failure and change nothing; of
  what 697-699 copy to a backup only a part may reach the file (no space left). All other reads and writes succeed.
* What is written is in the file at once.
* The files are those of one directory; nobody else changes them.
-/

namespace Cs.LogStore.Io
open Cs Cs.Buffer Cs.LogStore

/-- The files of a store, fs_log_store.cxx 20-25: `store.idx`, `store.dat`, `store.sti` and `store.idx.bak`, `store.dat.bak`,
`store.sti.bak`. -/
inductive Path where
  | idx | dat | sti | idxBak | datBak | stiBak
  deriving DecidableEq, Repr

/-- Something for each of the six files. -/
structure Six (α : Type) where
  idx : α
  dat : α
  sti : α
  idxBak : α
  datBak : α
  stiBak : α

/-- The part for a file. -/
def Six.at {α : Type} (x : Six α) : Path → α
  | .idx => x.idx
  | .dat => x.dat
  | .sti => x.sti
  | .idxBak => x.idxBak
  | .datBak => x.datBak
  | .stiBak => x.stiBak

/-- Replace the part for a file. -/
def Six.set {α : Type} (x : Six α) (a : α) : Path → Six α
  | .idx => { x with idx := a }
  | .dat => { x with dat := a }
  | .sti => { x with sti := a }
  | .idxBak => { x with idxBak := a }
  | .datBak => { x with datBak := a }
  | .stiBak => { x with stiBak := a }

/-- A `std::fstream`: the file it is open on, the position, and `failbit`/`badbit`. -/
structure Stream where
  on : Option Path
  pos : Nat
  bad : Bool
  deriving DecidableEq, Repr

/-- A stream that has not been opened. -/
def Stream.fresh : Stream := ⟨none, 0, false⟩

/-- The directory, the streams `idx_file_`, `data_file_`, `start_idx_file_` and those of the backups, and the other members of
`fs_log_store`, fs_log_store.hxx 179-189. A file that does not exist is `none`. -/
structure World where
  dir : Six (Option (List Byte))
  str : Six Stream
  count : Nat
  start : Nat
  cache : Cache
  bufSize : Nat

/-- Which calls fail, by line of fs_log_store.cxx, and how many bytes of a copy reach the file (`none`: all). -/
structure Env where
  fails : Nat → Bool
  room : Nat → Option Nat

/-- What a stream is open on. -/
def World.bytes (w : World) (o : Path) : List Byte :=
  match (w.str.at o).on with
  | none => []
  | some p => (w.dir.at p).getD []

/-- A stream with the bytes of its file. Operations on a closed stream fail. -/
def World.file (w : World) (o : Path) : File :=
  ⟨w.bytes o, (w.str.at o).pos, (w.str.at o).bad || (w.str.at o).on.isNone⟩

/-- Put a stream and its file back. A file that has been removed stays so. -/
def World.put (w : World) (o : Path) (f : File) : World :=
  match (w.str.at o).on with
  | none => { w with str := w.str.set ⟨none, f.pos, f.bad⟩ o }
  | some p => { w with dir := w.dir.set ((w.dir.at p).map fun _ => f.bytes) p, str := w.str.set ⟨some p, f.pos, f.bad⟩ o }

/-- Run a stream operation. -/
def on {α : Type} (o : Path) (m : M File α) : M World α := fun w => ((m (w.file o)).1, w.put o (m (w.file o)).2)

/-- The store as its other functions see it. -/
def World.store (w : World) : Store :=
  ⟨w.file .idx, w.file .dat, w.file .sti, w.count, w.start, w.cache, w.bufSize⟩

/-- Run a function of the store. -/
def call {α : Type} (m : M Store α) : M World α := fun w =>
  ((m w.store).1,
    { ((w.put .idx (m w.store).2.idx).put .dat (m w.store).2.dat).put .sti (m w.store).2.sti with
      count := (m w.store).2.count, start := (m w.store).2.start, cache := (m w.store).2.cache, bufSize := (m w.store).2.bufSize })

/-- The content of the three files, as the constructor of another store finds it (200-225: what does not exist is created). -/
def World.disk (w : World) : Disk := ⟨w.dir.idx.getD [], w.dir.dat.getD [], w.dir.sti.getD []⟩

/-- A store whose streams are open on its files, in a directory that may have backups left from an earlier compaction. -/
def World.of (s : Store) (idxBak datBak stiBak : Option (List Byte)) : World :=
  { dir := ⟨some s.idx.bytes, some s.dat.bytes, some s.sti.bytes, idxBak, datBak, stiBak⟩
    str := ⟨⟨some .idx, s.idx.pos, s.idx.bad⟩, ⟨some .dat, s.dat.pos, s.dat.bad⟩, ⟨some .sti, s.sti.pos, s.sti.bad⟩, .fresh, .fresh, .fresh⟩
    count := s.count, start := s.start, cache := s.cache, bufSize := s.bufSize }

/-! ## Operations of the file system -/

/-- `std::remove(path) == 0` -/
def remove (e : Env) (line : Nat) (p : Path) (w : World) : Bool × World :=
  if e.fails line || (w.dir.at p).isNone then (false, w)
  else (true, { w with dir := w.dir.set none p })

/-- `truncate(path, n) == 0` -/
def trunc (e : Env) (line : Nat) (p : Path) (n : Nat) (w : World) : Bool × World :=
  match w.dir.at p with
  | none => (false, w)
  | some bs =>
    if e.fails line then (false, w)
    else (true, { w with dir := w.dir.set (some (bs.take n ++ List.replicate (n - bs.length) 0)) p })

/-- `close()` of a stream that is not open sets the failbit. -/
def close (o : Path) (w : World) : World :=
  { w with str := w.str.set (match (w.str.at o).on with
      | none => { w.str.at o with bad := true }
      | some _ => { w.str.at o with on := none }) o }

/-- `if (stream) stream.close()` -/
def closeIf (o : Path) (w : World) : World := if (w.str.at o).bad then w else close o w

/-- The failbit is set. -/
def spoil (o : Path) (w : World) : World := { w with str := w.str.set { w.str.at o with bad := true } o }

/-- `open(path, out)`: creates the file or empties it. `open` of an open stream fails; a success clears the failbit. -/
def openOut (e : Env) (line : Nat) (o p : Path) (w : World) : World :=
  if (w.str.at o).on.isSome || e.fails line then spoil o w
  else { w with dir := w.dir.set (some []) p, str := w.str.set ⟨some p, 0, false⟩ o }

/-- `open(path, in | out | binary)`, with `ate` at the end of the file: fails when the file does not exist. -/
def openRw (e : Env) (line : Nat) (ate : Bool) (o p : Path) (w : World) : World :=
  match w.dir.at p with
  | none => spoil o w
  | some bs =>
    if (w.str.at o).on.isSome || e.fails line then spoil o w
    else { w with str := w.str.set ⟨some p, if ate then bs.length else 0, false⟩ o }

/-- What reaches the file of a copy of `rest`. -/
def partOf (e : Env) (line : Nat) (rest : List Byte) : List Byte :=
  match e.room line with
  | none => rest
  | some k => rest.take k

/-- `dst << src.rdbuf()`: the rest of `src`, or as much of it as the disk takes. The failbit is set when nothing or not everything
is written. A failed `dst` writes nothing; a failed `src` does not matter. -/
def copy (e : Env) (line : Nat) (dst src : Path) (w : World) : World :=
  if (w.file dst).bad then spoil dst w
  else copyPart ((w.bytes src).drop (w.str.at src).pos) (partOf e line ((w.bytes src).drop (w.str.at src).pos))
where
  copyPart (rest part : List Byte) : World :=
    (w.put src { w.file src with pos := (w.str.at src).pos + rest.length, bad := (w.str.at src).bad }).put dst
      ⟨overwrite (w.bytes dst) (w.str.at dst).pos part, (w.str.at dst).pos + part.length,
        rest.isEmpty || decide (part.length < rest.length)⟩

/-! ## `compact` -/

/-- Opening one backup, fs_log_store.cxx 667-673 (675-681, 683-689). -/
def openBak (e : Env) (l1 l2 l3 : Nat) (o : Path) (w : World) : World :=
  if ((openRw e l1 false o o w).str.at o).bad then
    openRw e l3 false o o (close o (openOut e l2 o o (openRw e l1 false o o w)))
  else openRw e l1 false o o w

/-- Preparing the backups, fs_log_store.cxx 652-689. -/
def prepare (e : Env) : M World Unit := do
  on .idx (seek 0)
  on .dat (seek 0)
  on .sti (seek 0)
  modify fun w => (remove e 662 .idxBak w).2
  modify fun w => (remove e 663 .datBak w).2
  modify fun w => (remove e 664 .stiBak w).2
  modify fun w => { w with str := { w.str with idxBak := .fresh, datBak := .fresh, stiBak := .fresh } }
  modify (openBak e 667 670 672 .idxBak)
  modify (openBak e 675 678 680 .datBak)
  modify (openBak e 683 686 688 .stiBak)

/-- Copying the files to the backups, fs_log_store.cxx 694-702. -/
def save (e : Env) : M World Unit := do
  on .idx (seek 0)
  on .dat (seek 0)
  on .sti (seek 0)
  modify (copy e 697 .idxBak .idx)
  modify (copy e 698 .datBak .dat)
  modify (copy e 699 .stiBak .sti)

/-- The end of clearing the store, fs_log_store.cxx 726-741. -/
def clearDone (last : Nat) : M World Bool := do
  on .sti (seek 0)
  on .sti (write (le8 (BitVec.ofNat 64 (last + 1))))
  modify fun w => { w with start := last + 1, count := 0, cache := w.cache.reset (last + 1) }
  modify (close .idxBak)
  modify (close .datBak)
  modify (close .stiBak)
  pure true

/-- Creating the files anew, fs_log_store.cxx 715-722. -/
def recreated (e : Env) (w : World) : World :=
  openRw e 721 true .dat .dat (close .dat (openOut e 719 .dat .dat
    (openRw e 717 true .idx .idx (close .idx (openOut e 715 .idx .idx w)))))

/-- Clearing the store once the files are removed, fs_log_store.cxx 715-741; `false` is a `break`. -/
def clearOpen (e : Env) (last : Nat) : M World Bool := do
  modify (recreated e)
  let w ← get
  if (w.str.idx).bad || (w.str.dat).bad then pure false else clearDone last

/-- Clearing the store, fs_log_store.cxx 708-741. -/
def clearAll (e : Env) (last : Nat) : M World Bool := do
  modify (close .idx)
  modify (close .dat)
  let w ← get
  if (remove e 711 .idx w).1 then do
    set (remove e 711 .idx w).2
    if (remove e 713 .dat (remove e 711 .idx w).2).1 then do
      set (remove e 713 .dat (remove e 711 .idx w).2).2
      clearOpen e last
    else pure false
  else pure false

/-- The end of removing a prefix, fs_log_store.cxx 792-807. -/
def partDone (last : Nat) : M World Bool := do
  modify (close .idxBak)
  modify (close .datBak)
  modify (close .stiBak)
  on .sti (seek 0)
  on .sti (write (le8 (BitVec.ofNat 64 (last + 1))))
  modify fun t => { t with count := t.count - (last - t.start + 1) }
  modify fun t => { t with start := last + 1 }
  modify fun t => { t with cache := t.cache.reset (cacheStart t.count t.start t.bufSize) }
  call fillBuffer
  pure true

/-- Truncating the index file, fs_log_store.cxx 784-790. -/
def partIdx (e : Env) (last idxLen : Nat) : M World Bool := do
  modify (close .idx)
  let w ← get
  if (trunc e 786 .idx idxLen w).1 then do
    set (openRw e 788 true .idx .idx (trunc e 786 .idx idxLen w).2)
    let v ← get
    if v.str.idx.bad then pure false else partDone last
  else pure false

/-- The positions of the remaining entries, fs_log_store.cxx 773-782: `n` positions of the backup, less `base`. -/
def partPos (base : Nat) : Nat → M World Unit
  | 0 => pure ()
  | n + 1 => do
    let q ← on .idxBak readULong
    on .idx (write (le8 (BitVec.ofNat 64 (subU64 q base))))
    partPos base n

/-- Truncating the data file and writing the index file, fs_log_store.cxx 761-790. -/
def partDat (e : Env) (last idxPos idxLen dataPos dataLen : Nat) : M World Bool := do
  modify (close .dat)
  let w ← get
  if (trunc e 763 .dat dataLen w).1 then do
    set (openRw e 765 true .dat .dat (trunc e 763 .dat dataLen w).2)
    let v ← get
    if v.str.dat.bad then pure false
    else do
      on .idxBak (seek idxPos)
      on .idx (seek 0)
      partPos dataPos (idxLen / 8)
      partIdx e last idxLen
  else pure false

/-- Removing a proper prefix of the log, fs_log_store.cxx 744-807. -/
def clearPart (e : Env) (last : Nat) : M World Bool := do
  let s ← get
  on .idx (seek ((last - s.start + 1) * 8))
  let dataPos ← on .idx readULong
  on .idx seekEnd
  on .dat seekEnd
  let idxEnd ← on .idx tell
  let datEnd ← on .dat tell
  on .datBak (seek dataPos)
  on .dat (seek 0)
  modify (copy e 759 .dat .datBak)
  partDat e last ((last - s.start + 1) * 8) (subU64 idxEnd ((last - s.start + 1) * 8)) dataPos (subU64 datEnd dataPos)

/-- Removing the files and opening new ones, fs_log_store.cxx 811-832. Line 823 opens the backup of the data instead of the data. -/
def reopened (e : Env) : M World Unit := do
  modify (closeIf .idx)
  modify (closeIf .dat)
  modify (closeIf .sti)
  modify fun w => (remove e 817 .idx w).2
  modify fun w => (remove e 818 .dat w).2
  modify fun w => (remove e 819 .sti w).2
  on .idxBak (seek 0)
  on .datBak (seek 0)
  on .stiBak (seek 0)
  modify (openOut e 823 .dat .datBak)
  modify (close .dat)
  modify (openRw e 825 true .dat .dat)
  modify (openOut e 826 .idx .idx)
  modify (close .idx)
  modify (openRw e 828 true .idx .idx)
  modify (openOut e 829 .sti .sti)
  modify (close .sti)
  modify (openRw e 831 true .sti .sti)

/-- Restoring the state due to errors, fs_log_store.cxx 810-849. -/
def restore (e : Env) : M World Bool := do
  reopened e
  let w ← get
  if w.str.idx.bad || w.str.dat.bad || w.str.sti.bad then throw .thrown
  else do
    modify (copy e 838 .dat .datBak)
    modify (copy e 839 .idx .idxBak)
    modify (copy e 840 .sti .stiBak)
    modify (close .idxBak)
    modify (close .datBak)
    modify (close .stiBak)
    pure false

/-- The loop that is left by `break` and the code behind it, fs_log_store.cxx 704-849. -/
def work (e : Env) (last : Nat) : M World Bool := do
  let w ← get
  let ok ← if w.start + w.count - 1 ≤ last then clearAll e last else clearPart e last
  if ok then pure true else restore e

/-- `compact`, fs_log_store.cxx 644-850. -/
def compact (e : Env) (last : Nat) : M World Bool := do
  let w ← get
  if last < w.start then throw .thrown
  else do
    prepare e
    let b ← get
    if b.str.idxBak.bad || b.str.datBak.bad || b.str.stiBak.bad then pure false
    else do
      save e
      work e last

end Cs.LogStore.Io
