import Verif.LogStore.Spec

/-!
# Calls of a log store by several threads

Model of `fs_log_store` (fs_log_store.cxx) as small steps of threads. The mutex `store_lock_` is held for the whole of a call by
`next_slot`, `start_index`, `append`, `write_at`, `pack`, `apply_pack` and `compact`, and for a part of it by `log_entries`, `entry_at` and
`term_at`. `last_entry`, and the other parts of these three, only use the cache, which has a mutex of its own for each of its functions. So a
step is: the part of a call between two uses of the cache, or one use of the cache.

Simplifications: filling the cache (`fill_buffer`) is one step, although the entries get there one by one. `close` and the destructor are
not included.
-/

namespace Cs.LogStore
open Cs Cs.Buffer

/-! ## Parts of the calls -/

/-- `append` up to the cache, fs_log_store.cxx 279-286. -/
def appendFiles (e : Ent) : M Store Unit := do
  onIdx seekEnd
  onDat seekEnd
  let p ← onDat tell
  onIdx (write (le8 (BitVec.ofNat 64 p)))
  let bs ← lift (serialize e)
  onDat (write bs)

/-- `append` after the cache, fs_log_store.cxx 288-296. -/
def appendEnd : M Store Nat := do
  modify fun s => { s with count := s.count + 1 }
  checkIO
  let s ← get
  pure (s.start + s.count - 1)

/-- `write_at` up to the cache, fs_log_store.cxx 301-354; returns `local_idx`. -/
def writeFiles (index : Nat) (e : Ent) : M Store Nat := do
  let s ← get
  if index < s.start ∨ s.start + s.count < index then throw .thrown
  else do
    writePos (index - s.start + 1)
    onIdx (seek ((index - s.start + 1 - 1) * 8))
    let dataPos ← onDat tell
    onIdx (write (le8 (BitVec.ofNat 64 dataPos)))
    let bs ← lift (serialize e)
    onDat (write bs)
    truncIfLonger
    pure (index - s.start + 1)

/-- `write_at` after the cache, fs_log_store.cxx 362-366. -/
def writeEnd (local_ : Nat) : M Store Unit := do
  modify fun s => { s with count := local_ }
  checkIO

/-- `compact` up to the cache when nothing is left, fs_log_store.cxx 706-734. -/
def compactAllFiles (last : Nat) : M Store Unit := do
  onIdx (recreate [])
  onDat (recreate [])
  onSti (seek 0)
  onSti (write (le8 (BitVec.ofNat 64 (last + 1))))
  modify fun s => { s with start := last + 1, count := 0 }

/-- `compact` up to the cache when entries are left, fs_log_store.cxx 744-804. -/
def compactPartFiles (last : Nat) : M Store Unit := do
  let s ← get
  onIdx (seek ((last - s.start + 1) * 8))
  let dataPos ← onIdx readULong
  onIdx seekEnd
  onDat seekEnd
  onDat (seek 0)
  onDat (write (s.dat.bytes.drop dataPos))
  onDat (truncateReopen (subU64 s.dat.bytes.length dataPos))
  onIdx (seek 0)
  let pos ← lift (shiftPos dataPos ((s.idx.bytes.length - (last - s.start + 1) * 8) / 8)
    (s.idx.bytes.drop ((last - s.start + 1) * 8)))
  onIdx (write pos)
  onIdx (truncateReopen (s.idx.bytes.length - (last - s.start + 1) * 8))
  onSti (seek 0)
  onSti (write (le8 (BitVec.ofNat 64 (last + 1))))
  modify fun t => { t with count := t.count - (last - t.start + 1) }
  modify fun t => { t with start := last + 1 }

/-- `compact` up to the cache, fs_log_store.cxx 646-804; returns whether entries are left. -/
def compactFiles (last : Nat) : M Store Bool := do
  let s ← get
  if last < s.start then throw .thrown
  else if s.start + s.count - 1 ≤ last then do
    compactAllFiles last
    pure false
  else do
    compactPartFiles last
    pure true

/-- `apply_pack` up to the cache, fs_log_store.cxx 569-639. -/
def packFiles (index : Nat) (bs : List Byte) : M Store Unit := do
  let s ← get
  if bs.length < 4 then throw .thrown
  else if bs.length < 8 then throw .thrown
  else if (dec4 (bs.take 4)).toInt < 0 ∨ (dec4 ((bs.drop 4).take 4)).toInt < 0 then throw .ub
  else do
    packPos (subU64 index s.start)
    packWrite (dec4 (bs.take 4)).toNat (dec4 ((bs.drop 4).take 4)).toNat (bs.drop 8)
    packTrunc
    checkIO
    modify fun t => { t with count := subU64 index s.start + (dec4 (bs.take 4)).toNat / 8 }

/-- `buf_->reset(..)`, fs_log_store.cxx 640, 735 and 805. -/
def resetCache (s : Store) : Store := { s with cache := s.cache.reset (cacheStart s.count s.start s.bufSize) }

/-- `entry_at` when the cache does not have the entry, fs_log_store.cxx 449-480. -/
def entryFile (index : Nat) : M Store (Option Ent) := do
  let s ← get
  if index < s.start then throw .thrown
  else do
    checkIO
    if s.start + s.count ≤ index then pure none
    else do
      onIdx (seek ((index - s.start) * 8))
      let p ← onIdx readULong
      let q ← onIdx readULong
      onDat (seek p)
      let bs ← onDat (readBlock (intSize (subU64 q p)))
      let e ← lift (decode bs)
      pure (some e)

/-- `term_at` when the cache does not have the entry, fs_log_store.cxx 490-512. -/
def termFile (index : Nat) : M Store U64 := do
  let s ← get
  if index < s.start then throw .thrown
  else do
    checkIO
    onIdx (seek (intSize (index - s.start) * 8 % 2 ^ 64))
    let p ← onIdx readULong
    onDat (seek p)
    let bs ← onDat (readBlock 8)
    pure (dec8 bs)

/-- `i < (int)n` as the number of rounds of a loop from 0. -/
def rounds (n : Nat) : Nat := (BitVec.ofNat 32 n).toInt.toNat

/-- `log_entries`: the entries that are not in the cache, fs_log_store.cxx 404-435. `lstart` and the first cached index have been found
before. -/
def rangeFile (lstart first : Nat) (results : List (Option Ent)) : M Store (Option (List (Option Ent))) := do
  checkIO
  let s ← get
  onIdx (seek (lstart * 8 % 2 ^ 64))
  let dataStart ← onIdx readULong
  let es ← readRange (rounds (subU64 (subU64 first s.start) lstart)) dataStart
  pure (some (placeAll results es))

/-! ## Threads -/

/-- Where a thread is. -/
inductive Pc where
  /-- not in a call -/
  | idle
  /-- at the beginning of a call -/
  | ready (op : Op)
  /-- `append` before line 287 -/
  | written (e : Ent)
  /-- `append` after line 287 -/
  | counted
  /-- `write_at` before line 356 -/
  | replaced (i : Nat) (e : Ent) (local_ : Nat)
  /-- `write_at` before line 361 -/
  | trimmed (e : Ent) (local_ : Nat)
  /-- `write_at` after line 361 -/
  | rewritten (local_ : Nat)
  /-- `compact` or `apply_pack` before the cache is reset (640, 735, 805); is it filled again, and the answer -/
  | changed (fill : Bool) (r : Res)
  /-- `compact` or `apply_pack` before the cache is filled (641, 806) -/
  | emptied (r : Res)
  /-- `entry_at` before line 452 -/
  | noEntry (i : Nat)
  /-- `term_at` in line 485, after `first_idx()` -/
  | fromFirst (i : Nat)
  /-- `term_at` before line 487 -/
  | inCache (i : Nat)
  /-- `term_at` before line 491 -/
  | noTerm (i : Nat)
  /-- `log_entries` before line 398, with `lstart` and `good_end` -/
  | ranged (i lstart goodEnd : Nat)
  /-- `log_entries` before line 406 -/
  | noRange (lstart first : Nat) (results : List (Option Ent))
  /-- at the end of a call -/
  | done (r : Except Fault Res)

/-- What a step does with `store_lock_`: nothing, take it at the beginning, or have it from the step before. -/
inductive Lock where
  | free | takes | has
  deriving DecidableEq

/-- Lines with `recur_lock(store_lock_)`: 255, 261, 278, 301, 373, 405, 452, 491, 517, 569, 646. -/
def Pc.lock : Pc → Lock
  | .ready .lastEntry | .ready (.entryAt _) | .ready (.termAt _) => .free
  | .ready _ => .takes
  | .written _ | .counted | .replaced .. | .trimmed .. | .rewritten _ | .changed .. | .emptied _ => .has
  | .noEntry _ | .noTerm _ | .noRange .. => .takes
  | .idle | .fromFirst _ | .inCache _ | .ranged .. | .done _ => .free

/-- The call goes on at `k`, or ends by an exception. -/
def goOn {α : Type} (m : M Store α) (k : α → Pc) (s : Store) : Pc × Store :=
  match m s with
  | (.ok a, s') => (k a, s')
  | (.error f, s') => (.done (.error f), s')

/-- The call ends. -/
def ends_ (x : Except Fault Res × Store) : Pc × Store := (.done x.1, x.2)

/-- The first step of a call. -/
def Op.begin : Op → Store → Pc × Store
  | .append e, s => goOn (appendFiles e) (fun _ => .written e) s
  | .writeAt i e, s => goOn (writeFiles i e) (.replaced i e) s
  | .compact i, s => goOn (compactFiles i) (fun b => .changed b (.bool true)) s
  | .applyPack i p, s => goOn (packFiles i p) (fun _ => .changed true .done) s
  | .entryAt i, s => match s.cache.at i with
    | some e => (.done (.ok (.ent (some e))), s)
    | none => (.noEntry i, s)
  | .termAt i, s => if s.cache.first ≤ i then (.fromFirst i, s) else (.noTerm i, s)
  | .logEntries i j, s =>
    if i < s.start then (.done (.error .thrown), s)
    else if j ≤ i ∨ s.start + s.count ≤ i then (.done (.ok (.ents none)), s)
    else (.ranged i (i - s.start) (min (j - s.start) s.count + s.start), s)
  | op, s => ends_ (op.run s)

/-- The next step of a thread. -/
def Pc.next : Pc → Store → Pc × Store
  | .ready op, s => op.begin s
  | .written e, s => (.counted, { s with cache := s.cache.append e })
  | .counted, s => ends_ (wrap .nat appendEnd s)
  | .replaced i e n, s => (.trimmed e n, { s with cache := if n ≤ s.count then s.cache.trim i else s.cache })
  | .trimmed e n, s => (.rewritten n, { s with cache := s.cache.append e })
  | .rewritten n, s => ends_ (wrap (fun _ => .done) (writeEnd n) s)
  | .changed fill r, s => (if fill then .emptied r else .done (.ok r), resetCache s)
  | .emptied r, s => ends_ (wrap (fun _ => r) fillBuffer s)
  | .noEntry i, s => ends_ (wrap .ent (entryFile i) s)
  | .fromFirst i, s => if i < s.cache.first + s.cache.buf.length then (.inCache i, s) else (.noTerm i, s)
  | .inCache i, s => (.done (.ok (.term (match s.cache.at i with | some e => e.term | none => 0))), s)
  | .noTerm i, s => ends_ (wrap .term (termFile i) s)
  | .ranged i lstart goodEnd, s => match s.cache.fill i goodEnd with
    | .ok results => if i < s.cache.first then (.noRange lstart s.cache.first results, s) else (.done (.ok (.ents (some results))), s)
    | .error f => (.done (.error f), s)
  | .noRange lstart first results, s => ends_ (wrap .ents (rangeFile lstart first results) s)
  | pc, s => (pc, s)

/-- Is a call under way that has not ended? -/
def Pc.busy : Pc → Prop
  | .idle | .done _ => False
  | _ => True

/-- What can be seen from outside. -/
inductive Label where
  | call (t : Nat) (op : Op)
  | ret (t : Nat) (r : Except Fault Res)

/-- The store, who has `store_lock_`, and the threads. -/
structure Sys where
  store : Store
  owner : Option Nat
  thr : Nat → Pc

/-- Thread `t` is at `pc` now. -/
def setThr {α : Type} (f : Nat → α) (t : Nat) (x : α) : Nat → α := fun u => if u = t then x else f u

/-- The owner of the mutex after a step of `t` from `pc` to `pc'`. -/
def ownerAfter (o : Option Nat) (t : Nat) (pc pc' : Pc) : Option Nat :=
  if pc.lock = .free then o else if pc'.lock = .has then some t else none

/-- A thread calls a function, makes a step, or returns. A step that takes the mutex needs it free. `reopen` is not a function of a store. -/
inductive Sys.Step : Sys → Option Label → Sys → Prop
  | call {y : Sys} {t : Nat} {op : Op} : y.thr t = .idle → (∀ b, op ≠ .reopen b) →
      Step y (some (.call t op)) { y with thr := setThr y.thr t (.ready op) }
  | run {y : Sys} {t : Nat} : (y.thr t).busy → ((y.thr t).lock = .takes → y.owner = none) →
      Step y none ⟨((y.thr t).next y.store).2, ownerAfter y.owner t (y.thr t) ((y.thr t).next y.store).1,
        setThr y.thr t ((y.thr t).next y.store).1⟩
  | ret {y : Sys} {t : Nat} {r : Except Fault Res} : y.thr t = .done r →
      Step y (some (.ret t r)) { y with thr := setThr y.thr t .idle }

/-- Executions with what is seen. `P` restricts the steps. -/
inductive Sys.Exec (P : Option Label → Store → Store → Prop) (y0 : Sys) : List Label → Sys → Prop
  | nil : Exec P y0 [] y0
  | step {y y' : Sys} {tr : List Label} {a : Option Label} : Exec P y0 tr y → Step y a y' → P a y.store y'.store →
      Exec P y0 (tr ++ a.toList) y'

/-- A store that no thread uses. -/
def Sys.quiet (s : Store) : Sys := ⟨s, none, fun _ => .idle⟩

end Cs.LogStore
