import Verif.Conc.Commit

/-!
# What the commit thread tells the event listener

The commit thread of `Verif/Conc/Commit.lean` with the call of lines 891-894 of src/raft_server.cxx as a step of its own:
`on_event(raft_event::logs_catch_up)` comes between the test of line 888 and the mutex of line 896. No mutex is held during the call.

Simplification: the server has an event listener, and `on_event` returns.
-/

namespace Cs.Commit

/-- What is true when the listener is called: the entries applied, the commit index the server knows and the next slot of its log. -/
structure Report where
  sm : Nat
  quick : Nat
  next : Nat
  deriving DecidableEq, Repr

/-- The threads, whether line 893 is done since the test of line 888, and the calls of `on_event(logs_catch_up)` so far. -/
structure Told where
  st : St
  told : Bool := false
  calls : List Report := []
  deriving DecidableEq, Repr

/-- A step of the commit thread, src/raft_server.cxx 888-897, with the call of line 893. -/
def stepTold (conf : Nat → Bool) (x : Told) : Told :=
  if x.st.c = .toLock ∧ x.told = false then
    { x with told := true, calls := x.calls ++ [⟨x.st.sm, x.st.quick, x.st.next⟩] }
  else { x with st := stepCommit conf x.st, told := x.told && decide ((stepCommit conf x.st).c = .toLock) }

/-- One action. -/
def tstep (conf : Nat → Bool) (x : Told) : Act → Told
  | .commit => stepTold conf x
  | a => { x with st := step conf x.st a }

/-- An execution. -/
def trun (conf : Nat → Bool) (x : Told) (as : List Act) : Told := as.foldl (tstep conf) x

/-- A server that has just been started. -/
def Told.init (sm next : Nat) : Told := { st := St.init sm next }

end Cs.Commit
