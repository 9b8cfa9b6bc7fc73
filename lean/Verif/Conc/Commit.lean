/-!
# The commit thread

Model of the threads that meet in the commit thread of a server: the thread itself (`raft_server::commit_in_bg`, src/raft_server.cxx
882-949), the threads that handle messages and timers (one at a time, since they hold `lock_`) as far as they call
`raft_server::commit` (lines 513-538) or change the length of the log, and the thread that destroys the server
(`raft_server::~raft_server`, lines 147-172).

An execution is a list of actions; each one lets a thread make its next step, starts a handler, or wakes a waiting thread without
notification. A thread that cannot make its step, because a mutex is taken, stays where it is.

Simplifications: reads and writes are sequentially consistent (`quick_commit_idx_`, `sm_commit_index_` and `stopping_` are read
without a mutex, which is a data race in C++). What is done with an entry is left out except for taking `lock_` for
configurations; exceptions, snapshots and the requests sent by `commit` are left out.
-/

namespace Cs.Commit

/-- The threads. -/
inductive Th where
  | commit | srv | dtor
  deriving DecidableEq, Repr

/-- Where the commit thread is. -/
inductive CPc where
  /-- before the test of line 888 -/
  | check
  /-- caught up, before line 896 -/
  | toLock
  /-- `commit_lock_` taken, before line 897 -/
  | locked
  /-- in line 897 -/
  | waiting
  /-- notified, before `commit_lock_` is taken again -/
  | woken
  /-- `commit_lock_` taken, before line 898 -/
  | test
  /-- before the test of line 911 -/
  | loop
  /-- `sm_commit_index_` is raised, before line 914 -/
  | entry
  /-- a configuration, before line 921 -/
  | conf
  /-- `lock_` taken, before line 936 -/
  | confHeld
  /-- before line 903 -/
  | bye
  /-- `stopping_lock_` taken, before line 904 -/
  | byeHeld
  | ended
  deriving DecidableEq, Repr

/-- Where the thread is that handles messages and timers. -/
inductive KPc where
  | idle
  /-- `lock_` taken, before line 515, with the target -/
  | raise (target : Nat)
  /-- before line 534 -/
  | tell
  deriving DecidableEq, Repr

/-- Where the destructor is. -/
inductive DPc where
  /-- before line 149 -/
  | start
  /-- before line 150 -/
  | stop
  /-- before line 151 -/
  | toLock
  /-- before line 152 -/
  | tell
  /-- before line 153 -/
  | toStop
  /-- before line 154 -/
  | unlock
  /-- before line 156 -/
  | toWait
  /-- in line 156 -/
  | waiting
  /-- notified, before `stopping_lock_` is taken again -/
  | woken
  /-- behind line 156 -/
  | done
  deriving DecidableEq, Repr

/-- The members of `raft_server` that are used, include/raft_server.hxx 120-149, with the owners of the mutexes. -/
structure St where
  quick : Nat := 0
  sm : Nat := 0
  /-- `log_store_->next_slot()` -/
  next : Nat := 1
  stopping : Bool := false
  lock : Option Th := none
  commitLock : Option Th := none
  stopLock : Option Th := none
  c : CPc := .check
  k : KPc := .idle
  d : DPc := .start
  deriving DecidableEq, Repr

/-- There is an entry to apply, lines 888 and 911. -/
def St.work (s : St) : Bool := decide (s.sm < s.quick) && decide (s.sm < s.next - 1)

/-- A step of the commit thread. `conf` tells which entries are configurations. -/
def stepCommit (conf : Nat → Bool) (s : St) : St :=
  match s.c with
  | .check => if s.work then { s with c := .loop } else { s with c := .toLock }
  | .toLock => if s.commitLock = none then { s with commitLock := some .commit, c := .locked } else s
  | .locked => { s with commitLock := none, c := .waiting }
  | .waiting => s
  | .woken => if s.commitLock = none then { s with commitLock := some .commit, c := .test } else s
  | .test => if s.stopping then { s with commitLock := none, c := .bye } else { s with commitLock := none, c := .check }
  | .loop => if s.work then { s with sm := s.sm + 1, c := .entry } else { s with c := .check }
  | .entry => if conf s.sm then { s with c := .conf } else { s with c := .loop }
  | .conf => if s.lock = none then { s with lock := some .commit, c := .confHeld } else s
  | .confHeld => { s with lock := none, c := .loop }
  | .bye => if s.stopLock = none then { s with stopLock := some .commit, c := .byeHeld } else s
  | .byeHeld => { s with stopLock := none, c := .ended, d := if s.d = .waiting then .woken else s.d }
  | .ended => s

/-- `commit_cv_.notify_one()` and `notify_all()`: the commit thread is the only one that waits. -/
def St.tell (s : St) : St := { s with c := if s.c = .waiting then .woken else s.c }

/-- A step of the thread that handles messages and timers: lines 515-518 and 534-537, then `lock_` is released. -/
def stepSrv (s : St) : St :=
  match s.k with
  | .idle => s
  | .raise t => { s with quick := if s.quick < t then t else s.quick, k := .tell }
  | .tell => if s.work then { s.tell with lock := none, k := .idle } else { s with lock := none, k := .idle }

/-- A step of the destructor, lines 149-156. -/
def stepDtor (s : St) : St :=
  match s.d with
  | .start => if s.lock = none then { s with lock := some .dtor, d := .stop } else s
  | .stop => { s with stopping := true, d := .toLock }
  | .toLock => if s.commitLock = none then { s with commitLock := some .dtor, d := .tell } else s
  | .tell => { s.tell with d := .toStop }
  | .toStop => if s.stopLock = none then { s with stopLock := some .dtor, d := .unlock } else s
  | .unlock => { s with commitLock := none, d := .toWait }
  | .toWait => { s with stopLock := none, d := .waiting }
  | .waiting => s
  | .woken => if s.stopLock = none then { s with d := .done } else s
  | .done => s

/-- What happens next. -/
inductive Act where
  /-- the commit thread -/
  | commit
  /-- a handler starts: it takes `lock_`, brings the log to its new length and calls `commit(target)` -/
  | handle (next target : Nat)
  /-- a handler brings the log to a new length and does not call `commit` -/
  | log (next : Nat)
  /-- the handler goes on -/
  | srv
  /-- the destructor -/
  | dtor
  /-- a thread wakes up without notification -/
  | wake (t : Th)
  deriving DecidableEq, Repr

/-- One action. -/
def step (conf : Nat → Bool) (s : St) : Act → St
  | .commit => stepCommit conf s
  | .handle n t => if s.lock = none then { s with lock := some .srv, next := n, k := .raise t } else s
  | .log n => if s.lock = none then { s with next := n } else s
  | .srv => stepSrv s
  | .dtor => stepDtor s
  | .wake .commit => if s.c = .waiting then { s with c := .woken } else s
  | .wake .dtor => if s.d = .waiting then { s with d := .woken } else s
  | .wake .srv => s

/-- An execution. -/
def run (conf : Nat → Bool) (s : St) (as : List Act) : St := as.foldl (step conf) s

/-- A server that has just been started, with `sm` entries applied out of `next - 1`. -/
def St.init (sm next : Nat) : St := { quick := sm, sm := sm, next := next }

end Cs.Commit
