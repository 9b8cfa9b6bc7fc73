/-!
# The asio service

Model of the worker threads of the asio service (`asio_service_impl::run` and `worker_entry`, src/asio_service.cxx 593-622), of the
handler that flushes the loggers (`flush_all_loggers`, lines 624-645) and of a call of `stop` (lines 647-659).

An execution is a list of actions; each one lets a thread make its next step, lets the timer of the loggers expire, lets a worker
thread handle some other event, or wakes the caller of `stop` without notification.

Simplifications: reads and writes are sequentially consistent (`stopping_` is read without a mutex, and `log_flush_tm_` is used by
two threads, which are data races). Other events are handled in one step; of them only whether they throw is kept. The loggers are
left out. That a worker thread also ends when nothing is left to be done, after the last flush, is left out: nothing happens then.
-/

namespace Cs.Service

/-- Where a worker thread is. -/
inductive WPc where
  /-- in `io_svc_.run()` -/
  | idle
  /-- before line 626 -/
  | load
  /-- before line 628 -/
  | rearm
  /-- before line 635 -/
  | flush
  /-- before line 641 -/
  | test
  /-- before line 643 -/
  | notify
  /-- behind line 620 -/
  | ended
  deriving DecidableEq, Repr

/-- Where the thread is that calls `stop`. -/
inductive SPc where
  /-- before line 650 -/
  | start
  /-- before line 653 -/
  | set
  /-- before line 654 -/
  | cancel
  /-- before line 655 -/
  | wait
  /-- in line 655 -/
  | waiting
  /-- notified -/
  | woken
  | done
  deriving DecidableEq, Repr

/-- The members that are used, include/asio_service.hxx and src/asio_service.cxx 33-65. -/
structure St where
  /-- `continue_ == 1` -/
  go : Bool := true
  stopping : Bool := false
  /-- a wait for `log_flush_tm_` is pending -/
  armed : Bool := true
  /-- completed waits for `log_flush_tm_` that no thread has taken -/
  queue : Nat := 0
  workers : List WPc
  stop : SPc := .start
  /-- other events handled -/
  handled : Nat := 0
  /-- other events whose handler has thrown -/
  thrown : Nat := 0
  deriving DecidableEq, Repr

/-- `stopping_cv_.notify_all()`. -/
def SPc.notified (p : SPc) : SPc := if p = .waiting then .woken else p

/-- A worker thread makes its next step. -/
def stepWork (s : St) (i : Nat) : St :=
  match s.workers[i]? with
  | some .idle => if s.queue = 0 then s else { s with queue := s.queue - 1, workers := s.workers.set i .load }
  | some .load => { s with workers := s.workers.set i (if s.go then .rearm else .flush) }
  | some .rearm =>
    { s with queue := if s.armed then s.queue + 1 else s.queue, armed := true, workers := s.workers.set i .flush }
  | some .flush => { s with workers := s.workers.set i .test }
  | some .test => { s with workers := s.workers.set i (if s.stopping then .notify else .idle) }
  | some .notify => { s with stop := s.stop.notified, workers := s.workers.set i .idle }
  | _ => s

/-- The caller of `stop` makes its next step. -/
def stepStop (s : St) : St :=
  match s.stop with
  | .start => if s.go then { s with go := false, stop := .set } else { s with stop := .done }
  | .set => { s with stopping := true, stop := .cancel }
  | .cancel => { s with queue := if s.armed then s.queue + 1 else s.queue, armed := false, stop := .wait }
  | .wait => { s with stop := .waiting }
  | .waiting => s
  | .woken => { s with stop := .done }
  | .done => s

/-- What happens next. -/
inductive Act where
  | work (i : Nat)
  | stop
  /-- `log_flush_tm_` expires -/
  | expire
  /-- a worker thread handles another event; lines 617-621: the thread ends if the handler throws -/
  | handle (i : Nat) (throws : Bool)
  | wake
  deriving DecidableEq, Repr

/-- A worker thread handles another event. -/
def stepHandle (s : St) (i : Nat) (throws : Bool) : St :=
  match s.workers[i]? with
  | some .idle =>
    if throws then { s with handled := s.handled + 1, thrown := s.thrown + 1, workers := s.workers.set i .ended }
    else { s with handled := s.handled + 1 }
  | _ => s

/-- One action. -/
def step (s : St) : Act → St
  | .work i => stepWork s i
  | .stop => stepStop s
  | .expire => if s.armed then { s with armed := false, queue := s.queue + 1 } else s
  | .handle i t => stepHandle s i t
  | .wake => { s with stop := s.stop.notified }

/-- A finite execution. -/
def run (s : St) (as : List Act) : St := as.foldl step s

/-- The service as constructed, lines 593-609, with `n` worker threads. -/
def St.init (n : Nat) : St := { workers := List.replicate n .idle }

end Cs.Service
