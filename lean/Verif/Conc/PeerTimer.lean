import Verif.Conc.Timer

/-!
# The heartbeat task of a peer, and the end of the peer

The heartbeat task has a plain reference to its peer (include/peer.hxx 43, include/timer_task.hxx 24-46), and its function is
`raft_server::handle_hb_timeout(peer&)` (src/raft_server.cxx 373-397, bound at 135 and 735). The threads of the server use and remove
peers while they hold `lock_`: `reconfigure` disables the heartbeat, which cancels the task (peer.hxx 93-100), and erases the peer from
`peers_` (src/raft_server.cxx 770-778), which destroys it; so does `handle_ext_resp_err` (src/raft_server_resp_handlers.cxx 432-441).

The model of the timer is the one of `Verif.Conc.Timer`. It says how calls of `schedule` and `cancel` and the worker threads are
interleaved; here the calls are made by whoever holds `lock_`.

Simplifications: one peer, and one thread that is not a worker thread in `handle_hb_timeout` (the others wait for `lock_`, or do not use
this peer). Nothing but `peers_` keeps the peer; a request that is on its way does not either (C100). The heartbeat is scheduled again by
`handle_hb_timeout` or by `enable_hb_for_peer` as long as the peer exists; whether it is enabled is left open.
-/

namespace Cs.PeerTimer
open Cs

/-- Who holds `lock_`: a thread of the server, or the worker thread that handles wait `i` of the heartbeat task. -/
inductive Who where
  | server
  | worker (i : Nat)
  deriving DecidableEq, Repr

/-- A peer and its heartbeat task. -/
structure St where
  task : Timer.St := {}
  /-- `raft_server::lock_` -/
  lock : Option Who := none
  /-- the peer exists -/
  alive : Bool := true
  /-- the worker threads that have used the peer after its end -/
  bad : List Nat := []
  deriving DecidableEq, Repr

/-- What happens next. -/
inductive Act where
  /-- a thread of the server takes `lock_` -/
  | acquire
  /-- and gives it back -/
  | release
  /-- the heartbeat is scheduled: src/raft_server.cxx 384 and 470 -/
  | schedule
  /-- the heartbeat is disabled: peer.hxx 98 -/
  | cancel
  /-- one of these two calls goes on -/
  | call
  /-- the timer expires -/
  | expire (i : Nat)
  /-- a worker thread takes a completion and tests the flag of the task -/
  | take (i : Nat)
  /-- it takes `lock_`, src/raft_server.cxx 375, and uses the peer, 376 -/
  | enter (i : Nat)
  /-- it leaves `handle_hb_timeout` -/
  | leave (i : Nat)
  /-- the peer is erased and destroyed, src/raft_server.cxx 776 -/
  | erase
  deriving DecidableEq, Repr

/-- Whoever holds the lock calls a function of the scheduler, if the peer exists. -/
def stepCall (s : St) (a : Timer.Act) : St :=
  if s.lock.isSome ∧ s.alive = true then { s with task := Timer.step s.task a } else s

/-- A worker thread that has passed the test gets the lock and uses the peer, src/raft_server.cxx 373-376. -/
def stepEnter (s : St) (i : Nat) : St :=
  if s.lock = none ∧ s.task.waits[i]? = some .checked then
    { s with task := Timer.step s.task (.exec i), lock := some (.worker i), bad := if s.alive then s.bad else i :: s.bad }
  else s

/-- One action. `erase` comes right after the call that cancels the task, src/raft_server.cxx 775-776. -/
def step (s : St) : Act → St
  | .acquire => if s.lock = none then { s with lock := some .server } else s
  | .release => if s.lock = some .server ∧ s.task.owner = .idle then { s with lock := none } else s
  | .schedule => stepCall s .schedule
  | .cancel => stepCall s .cancel
  | .call => stepCall s .owner
  | .expire i => { s with task := Timer.step s.task (.expire i) }
  | .take i => { s with task := Timer.step s.task (.take i) }
  | .enter i => stepEnter s i
  | .leave i => if s.lock = some (.worker i) ∧ s.task.owner = .idle then { s with lock := none } else s
  | .erase =>
    if s.lock = some .server ∧ s.alive = true ∧ s.task.owner = .idle ∧ s.task.cancelled = true then { s with alive := false } else s

/-- An execution, from the creation of the peer. -/
def run (as : List Act) : St := as.foldl step {}

end Cs.PeerTimer
