/-!
# The logger

Model of `fs_based_logger` (src/asio_service.cxx 45-98, 661-716) with the handler that flushes it (`flush_all_loggers`, lines 624-645),
the timer that calls the handler (lines 593-598, 628-630) and a call of `stop` (lines 647-659).

An execution is a list of actions: a line is logged, time passes, the timer expires, a handler or the caller of `stop` makes its next
step. Each step is one access to what the threads share.

Simplifications: one logger (`logger_list_lock_` is held while all of them are flushed, so with several the handler only takes longer).
Lines are a level and a text; time stamp and thread in front of them (lines 686-705) are left out (`Conc/Stamp.lean` has the time stamps). What is written to the stream is in
the file at once. Handlers are always taken by some worker thread (`Conc/Service.lean` has the workers, and what happens if they
end); so there is no bound on the number of handlers that run at the same time. The caller of `stop` does not wake up without a
notification. The timer is used by two threads without a mutex, which is a data race; here an access is one step.
-/

namespace Cs.Logger

/-- The methods `debug`, `info`, `warn`, `err`, and the levels of include/asio_service.hxx 39-45. -/
inductive Lv where
  | debug
  | info
  | warn
  | err
  deriving DecidableEq, Repr

/-- The numbers of the levels. -/
def Lv.num : Lv → Nat
  | .debug => 0
  | .info => 1
  | .warn => 2
  | .err => 3

/-- A line. -/
structure Line where
  lv : Lv
  text : Nat
  deriving DecidableEq, Repr

/-- The comparisons of lines 57, 65, 73, 81: is the line kept by a logger with this level? -/
def keeps (level l : Lv) : Bool := decide (level.num ≤ l.num)

/-- Where a call of `flush_all_loggers` is. -/
inductive Hc where
  /-- before line 626 -/
  | start
  /-- before line 628 -/
  | rearm
  /-- before line 634 -/
  | lock
  /-- before lines 664-669 -/
  | swap
  /-- in lines 672-677, with the lines that are left in `backup` -/
  | write (backup : List Line)
  /-- before line 641 -/
  | test
  | done
  deriving DecidableEq, Repr

/-- Where the caller of `stop` is. -/
inductive Sc where
  /-- `stop` is not called -/
  | idle
  /-- before line 653 -/
  | set
  /-- before line 654 -/
  | cancel
  /-- before line 655 -/
  | wait
  /-- in line 655 -/
  | waiting
  | returned
  deriving DecidableEq, Repr

/-- The state. -/
structure St where
  /-- the level of the logger -/
  level : Lv
  /-- time since the service was created, in ms -/
  clock : Nat := 0
  /-- `continue_ == 1` -/
  go : Bool := true
  stopping : Bool := false
  /-- when the pending wait for `log_flush_tm_` ends; 1 s after `run` (line 596) -/
  due : Option Nat := some 1000
  /-- `buffer_` -/
  buf : List Line := []
  /-- the lines of the file -/
  file : List Line := []
  /-- the calls of `flush_all_loggers`, from the first on -/
  hs : List Hc := []
  /-- who has `logger_list_lock_` -/
  owner : Option Nat := none
  stop : Sc := .idle
  deriving DecidableEq, Repr

/-- Actions. -/
inductive Act where
  /-- a thread logs a line -/
  | log (l : Line)
  /-- time passes -/
  | tick (n : Nat)
  /-- the timer expires, which makes a call of `flush_all_loggers` -/
  | expire
  /-- call `k` of `flush_all_loggers` makes its next step -/
  | flush (k : Nat)
  /-- the caller of `stop` makes its next step -/
  | stop
  deriving DecidableEq, Repr

/-- 1000 hours in ms, line 628. -/
def period : Nat := 1000 * 60 * 60 * 1000

/-- Lines 55-87, 707-710. -/
def St.log (s : St) (l : Line) : St := if keeps s.level l.lv then { s with buf := s.buf ++ [l] } else s

/-- The timer expires. -/
def St.expire (s : St) : St := match s.due with
  | some t => if t ≤ s.clock then { s with due := none, hs := s.hs ++ [.start] } else s
  | none => s

/-- A wait that is pending ends with an error, which makes a call of `flush_all_loggers` too (`cancel` and `expires_after` of the timer). -/
def St.abort (s : St) : St := match s.due with
  | some _ => { s with due := none, hs := s.hs ++ [.start] }
  | none => s

/-- Call `k` goes to `p`. -/
def St.goto (s : St) (k : Nat) (p : Hc) : St := { s with hs := s.hs.set k p }

/-- The next step of call `k` of `flush_all_loggers`. -/
def St.flush (s : St) (k : Nat) : St := match s.hs[k]? with
  | some .start => s.goto k (if s.go then .rearm else .lock)
  | some .rearm => { s.abort.goto k .lock with due := some (s.clock + period) }
  | some .lock => if s.owner = none then { s.goto k .swap with owner := some k } else s
  | some .swap => { s.goto k (.write s.buf) with buf := [] }
  | some (.write (l :: ls)) => { s.goto k (.write ls) with file := s.file ++ [l] }
  | some (.write []) => { s.goto k .test with owner := none }
  | some .test => { s.goto k .done with stop := if s.stopping ∧ s.stop = .waiting then .returned else s.stop }
  | some .done => s
  | none => s

/-- The next step of the caller of `stop`. -/
def St.stopStep (s : St) : St := match s.stop with
  | .idle => { s with go := false, stop := .set }
  | .set => { s with stopping := true, stop := .cancel }
  | .cancel => { s.abort with stop := .wait }
  | .wait => { s with stop := .waiting }
  | .waiting => s
  | .returned => s

/-- One action. -/
def St.step (s : St) : Act → St
  | .log l => s.log l
  | .tick n => { s with clock := s.clock + n }
  | .expire => s.expire
  | .flush k => s.flush k
  | .stop => s.stopStep

/-- An execution. -/
def St.run (s : St) (as : List Act) : St := as.foldl St.step s

/-- The service and the logger are new. -/
def St.init (level : Lv) : St := { level := level }

end Cs.Logger
