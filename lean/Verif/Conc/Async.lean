/-!
# `async_result`

Model of include/async.hxx, for one completion (`set_result`), one registration (`when_ready`) and any number of threads in
`get`. An execution is a list of actions; each action lets one thread make its next step, or wakes a waiting thread without a
notification. A thread that cannot make its step, because the mutex is taken, stays where it is.

Simplifications: reads and writes are sequentially consistent (the reads of `has_result_`, `result_`, `err_` and `handler_`
outside the mutex in `when_ready`, lines 58-60, are data races in C++). Taking the mutex for `handler_ = ..` (lines 54-55) or
for the check of `get` (lines 89-98) is one step with what is done while holding it, since nothing is visible in between.
-/

namespace Cs.Async

/-- Where the thread is that calls `when_ready`. -/
inductive Reg where
  /-- before line 54 -/
  | start
  /-- handler stored, before line 58 -/
  | check
  /-- `has_result_` was true, before line 60 -/
  | call
  | done
  deriving DecidableEq, Repr

/-- Where the thread is that calls `set_result`. -/
inductive Setter where
  /-- before line 69 -/
  | start
  /-- mutex taken and `result_` stored, before line 71 -/
  | err
  /-- before line 72 -/
  | has
  /-- before line 73 -/
  | copy
  /-- mutex released, before line 79, with the copy of the handler -/
  | call (handler : Bool)
  /-- before line 84 -/
  | notify
  | done
  /-- the handler has thrown, line 81 -/
  | thrown
  deriving DecidableEq, Repr

/-- Where a thread is that calls `get`. `ret` carries what `get` returns (`err_ == nullptr`) or throws. -/
inductive Getter (α ε : Type) where
  /-- before line 89 -/
  | start
  /-- in line 100 -/
  | wait
  /-- woken, before the mutex is taken again -/
  | woken
  /-- returned the value, or thrown the error -/
  | ret (r : Except ε α)

/-- `async_result<T, TE>`, include/async.hxx 109-115, with the threads that use it. `calls` lists the calls of the handler,
with their arguments, in order. -/
structure St (α ε : Type) where
  result : α
  err : Option ε := none
  has : Bool := false
  /-- `handler_` is not empty -/
  handler : Bool := false
  locked : Bool := false
  reg : Reg := .start
  setter : Setter := .start
  getter : Nat → Getter α ε := fun _ => .start
  calls : List (α × Option ε) := []

/-- The default constructor, line 33; `result_` holds a default value. -/
def St.empty {α ε : Type} (v0 : α) : St α ε := { result := v0 }
/-- The constructor from a result, line 36. -/
def St.ready {α ε : Type} (v : α) : St α ε := { result := v, has := true }
/-- The constructor from a handler, line 39. -/
def St.ofHandler {α ε : Type} (v0 : α) : St α ε := { result := v0, has := true, handler := true }

/-- What is set: the arguments of `set_result`, and whether the handler throws when it is called by `set_result`. -/
structure Outcome (α ε : Type) where
  value : α
  err : Option ε
  throws : Bool := false

/-- Lines 92-97 and 101-106. -/
def answer {α ε : Type} (s : St α ε) : Except ε α :=
  match s.err with
  | none => .ok s.result
  | some e => .error e

/-- A step of `when_ready`, lines 51-62. -/
def stepReg {α ε : Type} (s : St α ε) : St α ε :=
  match s.reg with
  | .start => if s.locked then s else { s with handler := true, reg := .check }
  | .check => if s.has then { s with reg := .call } else { s with reg := .done }
  | .call => { s with calls := s.calls ++ [(s.result, s.err)], reg := .done }
  | .done => s

/-- What `notify_all` does to a thread. -/
def Getter.notified {α ε : Type} : Getter α ε → Getter α ε
  | .wait => .woken
  | g => g

/-- A step of `set_result`, lines 65-85. -/
def stepSet {α ε : Type} (o : Outcome α ε) (s : St α ε) : St α ε :=
  match s.setter with
  | .start => if s.locked then s else { s with locked := true, result := o.value, setter := .err }
  | .err => { s with err := o.err, setter := .has }
  | .has => { s with has := true, setter := .copy }
  | .copy => { s with locked := false, setter := .call s.handler }
  | .call h =>
    if h then { s with calls := s.calls ++ [(s.result, s.err)], setter := if o.throws then .thrown else .notify }
    else { s with setter := .notify }
  | .notify => { s with setter := .done, getter := fun i => (s.getter i).notified }
  | .done => s
  | .thrown => s

/-- A step of the `i`-th call of `get`, lines 87-107. -/
def stepGet {α ε : Type} (i : Nat) (s : St α ε) : St α ε :=
  match s.getter i with
  | .start =>
    if s.locked then s
    else if s.has then { s with getter := fun j => if j = i then .ret (answer s) else s.getter j }
    else { s with getter := fun j => if j = i then .wait else s.getter j }
  | .wait => s
  | .woken => if s.locked then s else { s with getter := fun j => if j = i then .ret (answer s) else s.getter j }
  | .ret _ => s

/-- A waiting thread wakes up without a notification, which `std::condition_variable::wait` may do at any time. -/
def wake {α ε : Type} (i : Nat) (s : St α ε) : St α ε :=
  match s.getter i with
  | .wait => { s with getter := fun j => if j = i then .woken else s.getter j }
  | _ => s

/-- What happens next. -/
inductive Act where
  | reg
  | set
  | get (i : Nat)
  | wake (i : Nat)
  deriving DecidableEq, Repr

/-- One action. -/
def step {α ε : Type} (o : Outcome α ε) (s : St α ε) : Act → St α ε
  | .reg => stepReg s
  | .set => stepSet o s
  | .get i => stepGet i s
  | .wake i => wake i s

/-- An execution. -/
def run {α ε : Type} (o : Outcome α ε) (s : St α ε) (as : List Act) : St α ε := as.foldl (step o) s

end Cs.Async
