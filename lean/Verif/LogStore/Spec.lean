import Verif.LogStore.Model

/-!
# Specification of a log store: an ideal in-memory log

`Log` is a list of entries with the index of its first. `Ideal l op r l'` says that on the log `l` the operation `op`
answers `r` and leaves the log `l'`. `Within l first op` are the operations for which the file based store is claimed to
answer like the ideal log; `first` is the first index held in the cache.
-/

namespace Cs.LogStore
open Cs Cs.Buffer

/-- An ideal log. -/
structure Log where
  start : Nat
  ents : List Ent

/-- The log of a new store. -/
def Log.empty : Log := ⟨1, []⟩
/-- Index of the next entry. -/
def Log.next (l : Log) : Nat := l.start + l.ents.length
/-- The entry with index `i`. -/
def Log.get? (l : Log) (i : Nat) : Option Ent := if i < l.start then none else l.ents[i - l.start]?
/-- Entries with indexes in `[i, j)`. -/
def Log.range (l : Log) (i j : Nat) : List Ent := (l.ents.drop (i - l.start)).take (j - i)
/-- Replace everything from index `i` on by `es`. -/
def Log.replaceFrom (l : Log) (i : Nat) (es : List Ent) : Log := ⟨l.start, l.ents.take (i - l.start) ++ es⟩
/-- Drop everything up to and including index `i`. -/
def Log.dropTo (l : Log) (i : Nat) : Log := ⟨i + 1, l.ents.drop (i + 1 - l.start)⟩

/-- Size of entries in the data file: 9 bytes and the payload each. -/
def dataSize (es : List Ent) : Nat := (es.map fun e => 9 + e.data.length).sum

/-- Data positions of consecutive entries, the first one at `b`. -/
def posns : Nat → List Ent → List Nat
  | _, [] => []
  | b, e :: es => b :: posns (b + (9 + e.data.length)) es

/-- The format of a pack of entries: two lengths, the positions of the entries in the file they come from (the first at
`base`), and their data. The pack of no entries is empty. -/
def PackOf (p : List Byte) (es : List Ent) : Prop :=
  (es = [] ∧ p = []) ∨ (es ≠ [] ∧ dataSize es + 8 * es.length + 8 < 2 ^ 31 ∧ ∃ base, base + dataSize es < 2 ^ 62 ∧
    p = le4 (BitVec.ofNat 32 (8 * es.length)) ++ (le4 (BitVec.ofNat 32 (dataSize es)) ++
      (((posns base es).flatMap fun q => le8 (BitVec.ofNat 64 q)) ++ es.flatMap Ent.bytes)))

/-- Operations of a store. `reopen` closes the store and opens it again with the given cache size. -/
inductive Op where
  | nextSlot | startIndex | lastEntry
  | entryAt (i : Nat) | termAt (i : Nat) | logEntries (i j : Nat)
  | append (e : Ent) | writeAt (i : Nat) (e : Ent) | compact (i : Nat)
  | pack (i n : Nat) | applyPack (i : Nat) (p : List Byte)
  | reopen (bufSize : Int)

/-- Answers. -/
inductive Res where
  | nat (n : Nat) | term (t : U64) | ent (e : Option Ent) | ents (es : Option (List (Option Ent)))
  | bytes (p : List Byte) | done | bool (b : Bool)
  deriving DecidableEq, Repr

/-- Wrap an answer. -/
def wrap {α : Type} (f : α → Res) (m : M Store α) (s : Store) : Except Fault Res × Store :=
  match m s with
  | (.ok a, s') => (.ok (f a), s')
  | (.error e, s') => (.error e, s')

/-- One operation of the file based store. -/
def Op.run : Op → Store → Except Fault Res × Store
  | .nextSlot, s => wrap .nat LogStore.nextSlot s
  | .startIndex, s => wrap .nat LogStore.startIndex s
  | .lastEntry, s => wrap (fun e => .ent (some e)) LogStore.lastEntry s
  | .entryAt i, s => wrap .ent (LogStore.entryAt i) s
  | .termAt i, s => wrap .term (LogStore.termAt i) s
  | .logEntries i j, s => wrap .ents (LogStore.logEntries i j) s
  | .append e, s => wrap .nat (LogStore.append e) s
  | .writeAt i e, s => wrap (fun _ => .done) (LogStore.writeAt i e) s
  | .compact i, s => wrap .bool (LogStore.compact i) s
  | .pack i n, s => wrap .bytes (LogStore.pack i n) s
  | .applyPack i p, s => wrap (fun _ => .done) (LogStore.applyPack i p) s
  | .reopen b, s =>
    match openOn s.disk b with
    | .ok s' => (.ok .done, s')
    | .error e => (.error e, s)

/-- Answers and effects of the ideal log. -/
def Ideal (l : Log) : Op → Res → Log → Prop
  | .nextSlot, r, l' => r = .nat l.next ∧ l' = l
  | .startIndex, r, l' => r = .nat l.start ∧ l' = l
  | .lastEntry, r, l' => r = .ent (some (l.ents.getLast?.getD ⟨0, 1, []⟩)) ∧ l' = l
  | .entryAt i, r, l' => r = .ent (l.get? i) ∧ l' = l
  | .termAt i, r, l' => (∃ e, l.get? i = some e ∧ r = .term e.term) ∧ l' = l
  | .logEntries i j, r, l' =>
      r = .ents (if l.range i j = [] then none else some ((l.range i j).map some)) ∧ l' = l
  | .append e, r, l' => r = .nat l.next ∧ l' = ⟨l.start, l.ents ++ [e]⟩
  | .writeAt i e, r, l' => r = .done ∧ l' = l.replaceFrom i [e]
  | .compact i, r, l' => r = .bool true ∧ l' = l.dropTo i
  | .pack i n, r, l' => (∃ p, r = .bytes p ∧ PackOf p (l.range i (i + n))) ∧ l' = l
  | .applyPack i p, r, l' => r = .done ∧ ∃ es, PackOf p es ∧ l' = l.replaceFrom i es
  | .reopen _, r, l' => r = .done ∧ l' = l

/-- Replacing from index `i` by `es` leaves no bytes of the old entries behind: either old entries remain to be cut off
in the index file as well, or the new data is at least as long as the old data it replaces. The store violates its
contract in the other cases, see `C17_stale_bytes`. -/
def Log.Clean (l : Log) (i : Nat) (es : List Ent) : Prop :=
  i + es.length < l.next ∨ dataSize (l.ents.drop (i - l.start)) ≤ dataSize es

/-- The log fits in the store: less than 2^31 bytes of data, indexes below 2^62. -/
def Log.Fits (l : Log) : Prop := dataSize l.ents < 2 ^ 31 ∧ l.next < 2 ^ 62 ∧ 1 ≤ l.start

/-- Documented ranges, and the conditions under which the store keeps its contract. -/
def Within (l : Log) (first : Nat) : Op → Prop
  | .nextSlot | .startIndex | .lastEntry => True
  | .entryAt i => l.start ≤ i
  | .termAt i => l.start ≤ i ∧ i < l.next
  | .logEntries i j => l.start ≤ i ∧ (i < l.next → i < j → first ≤ j)
  | .append e => Log.Fits ⟨l.start, l.ents ++ [e]⟩
  | .writeAt i e => l.start ≤ i ∧ i ≤ l.next ∧ first ≤ i ∧ l.Clean i [e] ∧ (l.replaceFrom i [e]).Fits
  | .compact i => l.start ≤ i ∧ i + 1 < 2 ^ 62
  | .pack i n => l.start ≤ i ∧ 0 < n ∧ n < 2 ^ 31 ∧ dataSize (l.range i (i + n)) + 8 * n + 8 < 2 ^ 31
  | .applyPack i p => l.start ≤ i ∧ i ≤ l.next ∧
      ∃ es, PackOf p es ∧ es ≠ [] ∧ l.Clean i es ∧ (l.replaceFrom i es).Fits
  | .reopen b => b ≠ 0

/-- `Reach s l`: the store `s` is what a new store has become through operations within their ranges, and `l` is what the
ideal log has become through the same operations. -/
inductive Reach : Store → Log → Prop
  | new {b : Int} {s : Store} : b ≠ 0 → openOn Disk.none b = .ok s → Reach s Log.empty
  | step {s s' : Store} {l l' : Log} {op : Op} {r : Res} : Reach s l → Within l s.cache.first op →
      op.run s = (.ok r, s') → Ideal l op r l' → Reach s' l'

/-- The same for stores that are always opened with the default cache size (a negative number). -/
inductive ReachDefault : Store → Log → Prop
  | new {b : Int} {s : Store} : b < 0 → openOn Disk.none b = .ok s → ReachDefault s Log.empty
  | step {s s' : Store} {l l' : Log} {op : Op} {r : Res} : ReachDefault s l → Within l l.start op →
      (∀ b, op = .reopen b → b < 0) → op.run s = (.ok r, s') → Ideal l op r l' → ReachDefault s' l'

/-- Every question about a store is answered as by the log `l`. -/
def Shows (s : Store) (l : Log) : Prop :=
  (Op.run .nextSlot s).1 = .ok (.nat l.next) ∧ (Op.run .startIndex s).1 = .ok (.nat l.start) ∧
  (Op.run .lastEntry s).1 = .ok (.ent (some (l.ents.getLast?.getD ⟨0, 1, []⟩))) ∧
  (∀ i, l.start ≤ i → (Op.run (.entryAt i) s).1 = .ok (.ent (l.get? i))) ∧
  ∀ i e, l.get? i = some e → (Op.run (.termAt i) s).1 = .ok (.term e.term)

/-- Run operations on a new store with the given cache size; the answers. -/
def history (b : Int) (ops : List Op) : Except Fault (List Res) :=
  match openOn Disk.none b with
  | .ok s => go ops s
  | .error e => .error e
where
  go : List Op → Store → Except Fault (List Res)
    | [], _ => .ok []
    | op :: ops, s =>
      match op.run s with
      | (.ok r, s') => (go ops s').map (r :: ·)
      | (.error e, _) => .error e

/-- The entry with index `i` as it is in the files of a store with first index `start`: the bytes between its position and
the next one, or the end of the data. -/
def Disk.entry (d : Disk) (start i : Nat) : Except Fault Ent :=
  decode ((d.dat.take (if 8 * (i - start) + 8 < d.idx.length
      then (dec8 ((d.idx.drop (8 * (i - start) + 8)).take 8)).toNat else d.dat.length)).drop
    (dec8 ((d.idx.drop (8 * (i - start))).take 8)).toNat)

/-! ## Crashes -/

/-- Effects of a call on the files, in the order in which they reach them. -/
abbrev Effects := List (Disk → Disk)

/-- The files after the first `n` effects. -/
def Effects.upTo (fx : Effects) (n : Nat) (d : Disk) : Disk := (fx.take n).foldl (fun d f => f d) d

/-- Effects of `append`, fs_log_store.cxx 276-297: the new position and then the entry, byte by byte (`idx_file_` is
flushed first, 289-290). -/
def appendEffects (d : Disk) (e : Ent) : Effects :=
  (le8 (BitVec.ofNat 64 d.dat.length)).map (fun b d => { d with idx := d.idx ++ [b] }) ++
    e.bytes.map (fun b d => { d with dat := d.dat ++ [b] })

/-- Effects of `compact` when nothing is left, fs_log_store.cxx 706-735. -/
def compactAllEffects (last : Nat) : Effects :=
  [fun d => { d with idx := [] }, fun d => { d with dat := [] },
   fun d => { d with sti := overwrite d.sti 0 (le8 (BitVec.ofNat 64 (last + 1))) }]

/-- Effects of `compact` that keeps `n` positions `pos` and the data from `dataPos` on, fs_log_store.cxx 757-803. -/
def compactPartEffects (d : Disk) (last dataPos : Nat) (pos : List Byte) : Effects :=
  [fun x => { x with dat := overwrite x.dat 0 (d.dat.drop dataPos) },
   fun x => { x with dat := x.dat.take (d.dat.length - dataPos) },
   fun x => { x with idx := overwrite x.idx 0 pos },
   fun x => { x with idx := x.idx.take pos.length },
   fun x => { x with sti := overwrite x.sti 0 (le8 (BitVec.ofNat 64 (last + 1))) }]

end Cs.LogStore
