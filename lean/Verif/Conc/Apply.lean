/-!
# The commit thread and the handlers that install a snapshot

Model of the accesses of `raft_server::commit_in_bg` (src/raft_server.cxx 882-949) and of the handlers, which hold `lock_`, to
`sm_commit_index_`, `quick_commit_idx_`, the log and the state machine. The commit thread takes `lock_` for configurations only, and
reads `sm_commit_index_` again for each use.

An execution is a list of actions, each of which is one access of a thread.

Simplifications: single accesses are sequentially consistent (`sm_commit_index_` and `quick_commit_idx_` are accessed by two threads
without a common mutex, which is a data race in C++); `sm_commit_index_ += 1` is a read and a write. A call of the log store is one
step, since the store has a mutex of its own. The calls `pre_commit`, `rollback`, `save_snapshot_data`, `read_snapshot_data` and
`create_snapshot` of the state machine are left out, and so are waiting and waking up (`Conc/Commit.lean`) and invitations to join.
-/

namespace Cs.Apply

/-- Entries of the log: commands, and others (configurations). -/
inductive Ent where
  | app (data : Nat)
  | conf (n : Nat)
  deriving DecidableEq, Repr

/-- The entry is a command. -/
def Ent.isApp : Ent → Bool
  | .app _ => true
  | .conf _ => false

/-- Calls of the state machine: `commit` and `apply_snapshot` begin, and return. -/
inductive Call where
  | commit (i : Nat) (data : Nat)
  | apply (i : Nat)
  | done
  deriving DecidableEq, Repr

/-- Where the commit thread is, src/raft_server.cxx 884-940. -/
inductive Pc where
  /-- it waits (lines 888-909) or is before the first comparison of line 911 -/
  | idle
  /-- before the second comparison of line 911 -/
  | second
  /-- before `sm_commit_index_` is read in line 913 -/
  | load
  /-- before it is written in line 913 -/
  | store (v : Nat)
  /-- before line 914 -/
  | fetch
  /-- before the call in line 917 -/
  | call (data : Nat)
  /-- in `commit` -/
  | calling
  /-- a configuration, before line 921 -/
  | conf
  /-- `lock_` taken -/
  | confHeld
  /-- before line 939 -/
  | snap
  /-- `entry_at` has thrown, which ends the process (lines 942-947), or the null pointer it returned has been used (line 915) -/
  | dead
  deriving DecidableEq, Repr

/-- Where the handler of the last block of snapshot `i` is, src/raft_server_req_handlers.cxx 333-397. The other handlers are single
steps. -/
inductive Hc where
  | idle
  /-- the comparison of line 333 was passed; before line 364 -/
  | checked (i : Nat)
  /-- the log is compacted; before the call in line 370 -/
  | compacted (i : Nat)
  /-- in `apply_snapshot` -/
  | applying (i : Nat)
  /-- before line 381 -/
  | applied (i : Nat)
  /-- before line 382 -/
  | moved (i : Nat)
  deriving DecidableEq, Repr

/-- The state. -/
structure St where
  /-- `sm_commit_index_` -/
  sm : Nat
  /-- `quick_commit_idx_` -/
  qc : Nat
  /-- first index and next index of the log -/
  start : Nat
  next : Nat
  /-- the entries of the log; what it says outside `start .. next - 1` has no meaning -/
  at_ : Nat → Ent
  /-- the largest index for which a snapshot was made (lines 939, 540-600) -/
  made : Nat := 0
  pc : Pc := .idle
  hc : Hc := .idle
  /-- the calls of the state machine so far -/
  calls : List Call := []

/-- Actions. -/
inductive Act where
  /-- the commit thread makes its next step -/
  | commit
  /-- a handler raises the commit index to `n` (`commit`, src/raft_server.cxx 513-517) -/
  | advance (n : Nat)
  /-- a handler appends an entry -/
  | append (e : Ent)
  /-- a handler overwrites entry `k`, which removes those behind it (`write_at`) -/
  | rewrite (k : Nat) (e : Ent)
  /-- a snapshot of this server is complete, and the log is compacted up to `k` (`on_snapshot_completed`, lines 611-639) -/
  | compact (k : Nat)
  /-- the last block of snapshot `i` arrives -/
  | install (i : Nat)
  /-- its handler makes its next step -/
  | handler
  deriving DecidableEq, Repr

/-- A handler can take `lock_`. -/
def St.free (s : St) : Bool := s.hc == .idle && s.pc != .confHeld

/-- `compact`, src/fs_log_store.cxx: entries up to `k` are removed. If there are no others the log continues after `k`. -/
def St.compacted (s : St) (k : Nat) : St := { s with start := k + 1, next := max s.next (k + 1) }

/-- The next step of the commit thread, src/raft_server.cxx 911-939. -/
def St.commit (s : St) : Option St :=
  match s.pc with
  | .idle => some { s with pc := if s.sm < s.qc then .second else .idle }
  | .second => some { s with pc := if s.sm < s.next - 1 then .load else .idle }
  | .load => some { s with pc := .store s.sm }
  | .store v => some { s with sm := v + 1, pc := .fetch }
  | .fetch =>
    if s.start ≤ s.sm ∧ s.sm < s.next then
      match s.at_ s.sm with
      | .app d => some { s with pc := .call d }
      | .conf _ => some { s with pc := .conf }
    else some { s with pc := .dead }
  | .call d => some { s with pc := .calling, calls := s.calls ++ [.commit s.sm d] }
  | .calling => some { s with pc := .snap, calls := s.calls ++ [.done] }
  | .conf => if s.hc = .idle then some { s with pc := .confHeld } else none
  | .confHeld => some { s with pc := .snap }
  | .snap => some { s with pc := .idle, made := max s.made s.sm }
  | .dead => none

/-- The next step of the handler that installs a snapshot, src/raft_server_req_handlers.cxx 364-382. -/
def St.handler (s : St) : Option St :=
  match s.hc with
  | .idle => none
  | .checked i => some { s.compacted i with hc := .compacted i }
  | .compacted i => some { s with hc := .applying i, calls := s.calls ++ [.apply i] }
  | .applying i => some { s with hc := .applied i, calls := s.calls ++ [.done] }
  | .applied i => some { s with sm := i, hc := .moved i }
  | .moved i => some { s with qc := i, hc := .idle }

/-- An action, if it is possible. Snapshots below the start of the log end the process (`fs_log_store::compact` throws, lines 400-406)
and are left out. -/
def St.step (s : St) : Act → Option St
  | .commit => s.commit
  | .advance n => if s.free then some { s with qc := max s.qc n } else none
  | .append e => if s.free then some { s with next := s.next + 1, at_ := fun i => if i = s.next then e else s.at_ i } else none
  | .rewrite k e => if s.free ∧ s.start ≤ k ∧ k < s.next then
      some { s with next := k + 1, at_ := fun i => if i = k then e else s.at_ i } else none
  | .compact k => if s.free ∧ s.start ≤ k ∧ k ≤ s.made then some (s.compacted k) else none
  | .install i => if s.free ∧ s.sm < i ∧ s.start ≤ i then some { s with hc := .checked i } else none
  | .handler => s.handler

/-! ## Specification -/

/-- `Orderly E p0 p b l`: a state machine that is at index `p0` and gets the calls `l` is at index `p` afterwards, has a call running
iff `b`, and the calls were in order: one at a time; each command is the one that entry `E i` holds, and is the next one in the log;
snapshots lead forwards. -/
inductive Orderly (E : Nat → Ent) (p0 : Nat) : Nat → Bool → List Call → Prop
  | nil : Orderly E p0 p0 false []
  | commit {p i d : Nat} {l : List Call} : Orderly E p0 p false l → p < i → E i = .app d →
      (∀ j, p < j → j < i → (E j).isApp = false) → Orderly E p0 i true (l ++ [.commit i d])
  | apply {p i : Nat} {l : List Call} : Orderly E p0 p false l → p < i → Orderly E p0 i true (l ++ [.apply i])
  | done {p : Nat} {l : List Call} : Orderly E p0 p true l → Orderly E p0 p false (l ++ [.done])

/-- The calls are in order. -/
def InOrder (E : Nat → Ent) (p0 : Nat) (l : List Call) : Prop := ∃ p b, Orderly E p0 p b l

/-- What the protocol guarantees to a single server: `E` are the committed entries of the cluster. The commit index is raised only
over entries that are committed, entries below it are added as they are committed, and not overwritten. -/
def Legal (E : Nat → Ent) (s : St) : Act → Prop
  | .advance n => ∀ i, i < s.next → s.start ≤ i → i ≤ n → s.at_ i = E i
  | .append e => s.next ≤ s.qc → e = E s.next
  | .rewrite k _ => s.qc < k
  | _ => True

/-- States of a server that has just started. -/
structure Init (E : Nat → Ent) (s : St) : Prop where
  start : s.start ≤ s.sm + 1
  next : s.start ≤ s.next
  commit : s.qc = s.sm
  made : s.made = 0
  agrees : ∀ i, i < s.next → s.start ≤ i → i ≤ s.qc → s.at_ i = E i
  pc : s.pc = .idle
  hc : s.hc = .idle
  calls : s.calls = []

/-- Executions in which the environment acts as the protocol allows, and every action satisfies `P`. -/
inductive Run (E : Nat → Ent) (P : St → Act → Prop) (s0 : St) : St → Prop
  | refl : Run E P s0 s0
  | step {s s' : St} {a : Act} : Run E P s0 s → Legal E s a → P s a → s.step a = some s' → Run E P s0 s'

/-- What the code does not provide: while a snapshot is installed the commit thread is at rest. -/
def Apart (s : St) (a : Act) : Prop := (∀ i, a = .install i → s.pc = .idle) ∧ (s.hc ≠ .idle → a ≠ .commit)

end Cs.Apply
