/-!
# Time stamps of log lines

Model of `fs_based_logger::write_log` (src/asio_service.cxx 687-711), called by several threads. `std::gmtime` (line 692) returns a pointer to
one `std::tm` for the whole process; it is written and read without a mutex.

An execution is a list of actions: time passes, a thread calls `write_log`, a thread writes or reads one field of the shared `std::tm`, goes on
to the next part, or adds its line to the queue.

Simplifications: the clock of the system does not go back. The accesses to the `std::tm` are a data race, whose behaviour is undefined; here
each access to a field is one step. The fields are written and read in any order: the order in which `gmtime` writes them is that of the
library, and the order in which the arguments of `fmt` are evaluated is unspecified. A line is the time stamp; number of the thread, level
and text are left out (`Conc/Logger.lean` has what happens to the lines after that).
-/

namespace Cs.Stamp

/-- The fields of a `std::tm` that are used, lines 696-701: month, day, year, hour, minute, second. -/
def nFields : Nat := 6

/-- A line as it is put into the queue, line 709. -/
structure Line where
  /-- the thread (not in the text) -/
  who : Nat
  /-- the clock when line 689 was executed, in ms since the epoch (not in the text) -/
  time : Nat
  /-- what was read from the `std::tm` -/
  fields : List (Option Int)
  /-- the milliseconds, line 690 -/
  ms : Nat
  deriving DecidableEq, Repr

/-- Where a thread is. -/
inductive Pc where
  | idle
  /-- in line 692, with the time and the fields that are written -/
  | writing (now : Nat) (done : List Bool)
  /-- in lines 694-704, with the time and what has been read -/
  | reading (now : Nat) (got : List (Option Int))
  deriving DecidableEq, Repr

/-- The state. -/
structure St where
  /-- the clock of the system in ms since the epoch -/
  clock : Nat
  /-- the `std::tm` of the process -/
  tm : List Int := List.replicate nFields 0
  ths : List Pc
  /-- `buffer_` with the lines that have been taken from it by `flush` -/
  queue : List Line := []
  deriving DecidableEq, Repr

/-- Actions. -/
inductive Act where
  | tick (n : Nat)
  | call (k : Nat)
  | write (k j : Nat)
  | next (k : Nat)
  | read (k j : Nat)
  | push (k : Nat)
  deriving DecidableEq, Repr

/-- Line 689-690: the time is read. -/
def St.call (s : St) (k : Nat) : St := match s.ths[k]? with
  | some .idle => { s with ths := s.ths.set k (.writing s.clock (List.replicate nFields false)) }
  | _ => s

/-- Line 692: `gmtime` writes a field; `cal` has the fields for a number of seconds. -/
def St.write (cal : Nat → Nat → Int) (s : St) (k j : Nat) : St := match s.ths[k]? with
  | some (.writing now done) => { s with tm := s.tm.set j (cal (now / 1000) j), ths := s.ths.set k (.writing now (done.set j true)) }
  | _ => s

/-- `gmtime` returns. -/
def St.next (s : St) (k : Nat) : St := match s.ths[k]? with
  | some (.writing now done) => if done.all id then { s with ths := s.ths.set k (.reading now (List.replicate nFields none)) } else s
  | _ => s

/-- Lines 696-701: a field is read. -/
def St.read (s : St) (k j : Nat) : St := match s.ths[k]? with
  | some (.reading now got) => { s with ths := s.ths.set k (.reading now (got.set j s.tm[j]?)) }
  | _ => s

/-- Lines 707-710: the line is put into the queue. -/
def St.push (s : St) (k : Nat) : St := match s.ths[k]? with
  | some (.reading now got) =>
    if got.all Option.isSome then { s with queue := s.queue ++ [⟨k, now, got, now % 1000⟩], ths := s.ths.set k .idle } else s
  | _ => s

/-- One step. -/
def St.step (cal : Nat → Nat → Int) (s : St) : Act → St
  | .tick n => { s with clock := s.clock + n }
  | .call k => s.call k
  | .write k j => s.write cal k j
  | .next k => s.next k
  | .read k j => s.read k j
  | .push k => s.push k

/-- An execution. -/
def St.run (cal : Nat → Nat → Int) (s : St) (as : List Act) : St := as.foldl (St.step cal) s

/-- A process with `n` threads. -/
def St.init (clock n : Nat) : St := { clock, ths := List.replicate n .idle }

end Cs.Stamp
