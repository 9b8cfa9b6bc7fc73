/-!
# Timers

Model of a delayed task (include/delayed_task.hxx 47-63), of `delayed_task_scheduler::cancel` (include/delayed_task_scheduler.hxx
34-38) and of their implementation by the asio service (src/asio_service.cxx 568-574 and 719-739), for one task.

The task has one `asio::steady_timer`. Every call of `schedule` adds a wait to the timer; `expires_after` and `cancel` of the
timer complete the waits that are still pending with an error, and the expiry of the timer completes them without error. The
completions are put into a queue, from which the worker threads take them. asio does not take back a completion that is already
in the queue.

An execution is a list of actions. The calls of `schedule` and `cancel` follow one another (the server makes them while it
holds `lock_`); the worker threads run at the same time.

Simplifications: reads and writes are sequentially consistent, which `std::atomic` gives here. When the timer expires is left
open: a pending wait can expire at any time, and the completions are taken in any order.
-/

namespace Cs.Timer

/-- Where a wait is, that is one call of `async_wait`, src/asio_service.cxx 730. -/
inductive WPc where
  | pending
  /-- completed, with an error or without -/
  | queued (err : Bool)
  /-- a worker thread has passed the test of delayed_task.hxx 49 and is about to call `exec` -/
  | checked
  | done
  deriving DecidableEq, Repr

/-- Where the thread is that calls `schedule` and `cancel`. -/
inductive OPc where
  | idle
  /-- in `schedule`, before src/asio_service.cxx 729 -/
  | resetDone
  /-- in `schedule`, before line 730 -/
  | expirySet
  /-- in `cancel`, before delayed_task_scheduler.hxx 37 -/
  | timerCancelled
  deriving DecidableEq, Repr

/-- A task and its timer. -/
structure St where
  /-- delayed_task.hxx 80 -/
  cancelled : Bool := false
  /-- the waits; the place is the number of calls of `schedule` before -/
  waits : List WPc := []
  owner : OPc := .idle
  /-- the calls of `exec`, the last one first, each with the place of its wait -/
  execs : List Nat := []
  deriving DecidableEq, Repr

/-- `steady_timer::cancel` and `steady_timer::expires_after`. -/
def abort (ws : List WPc) : List WPc := ws.map fun w => if w = .pending then .queued true else w

/-- What happens next. -/
inductive Act where
  /-- `schedule` is called -/
  | schedule
  /-- `cancel` is called -/
  | cancel
  /-- the call goes on -/
  | owner
  /-- the timer expires -/
  | expire (i : Nat)
  /-- a worker thread takes a completion -/
  | take (i : Nat)
  /-- the worker thread goes on -/
  | exec (i : Nat)
  deriving DecidableEq, Repr

/-- The next step of `schedule` and of `cancel`. -/
def stepOwner (s : St) : St :=
  match s.owner with
  | .idle => s
  | .resetDone => { s with waits := abort s.waits, owner := .expirySet }
  | .expirySet => { s with waits := s.waits ++ [.pending], owner := .idle }
  | .timerCancelled => { s with cancelled := true, owner := .idle }

/-- `_timer_handler_`, src/asio_service.cxx 568-574, up to the test in `delayed_task::execute`. -/
def stepTake (s : St) (i : Nat) : St :=
  match s.waits[i]? with
  | some (.queued true) => { s with waits := s.waits.set i .done }
  | some (.queued false) => { s with waits := s.waits.set i (if s.cancelled then .done else .checked) }
  | _ => s

/-- One action. -/
def step (s : St) : Act → St
  | .schedule => if s.owner = .idle then { s with cancelled := false, owner := .resetDone } else s
  | .cancel => if s.owner = .idle then { s with waits := abort s.waits, owner := .timerCancelled } else s
  | .owner => stepOwner s
  | .expire i => if s.waits[i]? = some .pending then { s with waits := s.waits.set i (.queued false) } else s
  | .take i => stepTake s i
  | .exec i => if s.waits[i]? = some .checked then { s with waits := s.waits.set i .done, execs := i :: s.execs } else s

/-- An execution. -/
def run (s : St) (as : List Act) : St := as.foldl step s

end Cs.Timer
