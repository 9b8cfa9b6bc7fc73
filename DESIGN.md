# Formal model of cornerstone in Lean 4

This directory holds a Lean 4 model of the C++ library in `/repo` and machine-checked proofs about it.

* `properties.jsonl`: the properties. `MANIFEST.json`: for each property its status, the theorems and a note.
* `lean/Verif`: model, specifications and proofs. `seeded/LOG.jsonl`: experiments with wrong programs (last section).

A property the code violates has status `partial`: there is a theorem that refutes it (a concrete state, history or schedule
that is reachable in the model) and, where something is left to prove, a theorem with the suffix `_partial` that says under
which condition it holds. The doc comment of each `_partial` theorem says what is missing.

## Trusted base

* The Lean 4 kernel (4.33.0) and the axioms `propext`, `Classical.choice`, `Quot.sound`. Every theorem named in the manifest
  depends on these three or fewer (checked by `#print axioms`). No own axioms, no `sorry`, no `native_decide`, no `bv_decide`.
  Concrete witnesses are evaluated by the kernel (`decide`, `decide +kernel`, `rfl`).
* That the definitions in the model files below say what the C++ says. Each definition cites file and lines of `/repo` and says
  where it simplifies.
* Platform: two's complement, little-endian host, 8-bit bytes, 64-bit `size_t`, 32-bit `int`.
* That the specifications are what is meant: `Verif/*/Spec.lean` and the first section of the `Props*.lean` files.

## What is modelled

Code is modelled function by function as total Lean functions. Results are in `Except Fault`, where a fault is one of
`thrown` (a C++ exception leaves the function), `exit` (the process ends itself) or `ub` (undefined behaviour, for instance an
access outside a buffer). Undefined behaviour is thus an outcome of its own that theorems have to exclude.

| Code | Model | Not modelled |
|---|---|---|
| `buffer.cxx` | `Buffer/Model.lean`, `Buffer/IO.lean`, `Buffer/Stream.lean`: header words as bit vectors and a list of bytes | failure of memory allocation |
| `srv_config`, `cluster_config`, `snapshot`, `snapshot_sync_req`, `log_entry` | `Codec/Model.lean`, on top of the buffer model; cookies of log entries in `LogStore/Cookie.lean` | |
| `asio_service.cxx`, sessions and clients: the frames | `Rpc/Model.lean` | |
| `asio_service.cxx`: `create_client` | `Rpc/Endpoint.lean`: the regular expression as a language | the implementation of `std::regex` |
| `asio_service.cxx`: `asio_rpc_client` | `Conc/Client.lean`: one step per completion of an asynchronous operation | partial reads and writes; data races on the socket |
| `asio_service.cxx`: worker threads, `stop`, timers; `delayed_task.hxx` | `Conc/Service.lean`, `Conc/Timer.lean`, `Conc/PeerTimer.lean`: small steps of threads | |
| `asio_service.cxx`: listener and sessions | `Conc/Listener.lean`: accept, sessions, pending operations; the bytes are in `Rpc/Model.lean` | the destructor of a session; the sockets |
| `asio_service.cxx`: loggers | `Conc/Logger.lean`: levels, buffer, flush handler, `stop`; `Conc/Stamp.lean`: the time stamps of the lines | the destructor, errors of the stream |
| `log_entry.hxx`: one entry's buffer, shared by handlers, commit thread and senders | `Conc/Share.lean`: small steps of the users of one entry | |
| payloads of requests: how handlers make and read them | `Link/Model.lean`: from messages of the server model to frames and back | when a payload is decoded (on arrival here, on use in the code) |
| all mutexes but those of `async.hxx`, of destructors and of `asio_service::stop` | `Conc/Locks.lean`: programs of guard scopes | what the code decides by its state |
| `async.hxx` | `Conc/Async.lean`: small steps of threads | |
| `fs_log_store.cxx` | `LogStore/Model.lean`: three byte files with stream state, cache; a crash keeps a prefix of the file effects | reordering of writes by the operating system |
| `fs_log_store::compact` with failing calls | `LogStore/Disk.lean`: six files and streams; each call may fail by its line; copies may be cut short | failing reads, failing writes other than copies |
| `fs_log_store::append` with failing calls | `LogStore/Full.lean`: each of the four calls may fail after any number of bytes | bytes that remain in the buffer of the stream after an exception |
| `fs_log_store::write_at` with failing calls and crashes | `LogStore/FullWrite.lean`: each of the six calls may fail; `LogStore/PropsCrash.lean`: the effects on the files byte by byte | bytes that remain in the buffer of the stream after an exception; the order in which the system writes the two files to the disk |
| `fs_log_store::apply_pack` with crashes | `LogStore/PropsPackCrash.lean`: any part of what the streams have been given has reached the files | packs that overwrite entries |
| `fs_log_store::apply_pack` with failing calls | `LogStore/FullPack.lean`: each of the two files takes any number of bytes | what packs that replace entries leave in the files; bytes left in the buffer of a failed stream |
| `fs_log_store::close` and calls after it | `LogStore/Close.lean`: the streams fail from then on | the answers of `entry_at` and `pack` behind the log before a stream has been used |
| `fs_log_store` used by several threads | `LogStore/Threads.lean`: steps of threads between two uses of the cache, owner of `store_lock_` | `close`, destructor; filling the cache is one step |
| `raft_server.cxx`, `raft_server_req_handlers.cxx`, `raft_server_resp_handlers.cxx`, `peer.cxx`, `peer.hxx` | `Raft/Types.lean`, `Raft/Model.lean`: one record for the state, handlers in a monad of state, faults and a trace of effects | what is logged; listeners beyond the events; int32 overflow of times; what a handler does to the heap |
| `raft_server.cxx`: `append_entries`, `add_srv`, `remove_srv`, `send_msg_to_leader`; the client of a peer | `Raft/Forward.lean` | locks: a call is one step |
| `raft_server.cxx`: `commit_in_bg`, the destructor | `Raft/Model.lean` (one iteration as one step), `Conc/Commit.lean` (small steps of the threads: waiting and waking up), `Conc/CatchUp.lean` (the call of the event listener), `Conc/Apply.lean` (small steps: the applied index, the calls of the state machine, installing a snapshot) | |

Simplifications of the server model that matter:

* A handler runs as one step. In the code handlers hold `lock_`; the exceptions (`replicate_log`, the commit thread, the
  destructor) are treated separately in `Raft/PropsRace.lean`, `Conc/Commit.lean` and `Conc/Apply.lean`.
* The log store is an abstract log (`Raft/Store.lean` and `LogStore/Refine.lean` say how the file store relates to it), with the
  exceptions that `fs_log_store` throws. The state machine is an environment that answers any way the interface allows.
* `state_mgr` and the log store put what they are given on the disk before they return. A crash happens after any prefix of the
  effects.
* Times are natural numbers that the environment sets; election timeouts have no duration, any expiry order is possible.
* Numbers that the code keeps in `ulong` are natural numbers in the server model. Subtractions that can wrap are modelled with
  `subU64`; 32-bit casts of sizes and times are modelled (`toI32`).

Levels of theorems: a single call in any state; histories of one server (`Raft/Spec.lean`: any inputs in any order, crashes,
restarts); executions of a cluster (`Cluster/Spec.lean`: several servers, a network that loses, delays, repeats and reorders
messages, crashes at any point; without snapshots in `Cluster/Spec.lean`, with them in `Cluster/Wide.lean`, with compaction but no transfer of snapshots in `Cluster/CutSpec.lean`, all three with fixed members; with members added and
removed in `Cluster/Change.lean`); schedules of threads (`Conc`). Proofs about handlers go through
relations between states that are preserved by every step (`Raft/Pres.lean`, tactic `pres`); cluster proofs refine each handler
to a step of a small protocol (`Cluster/Proto.lean`) about which the invariants are proved (`Cluster/Inv.lean`, `Logs.lean`,
`Complete.lean`, `Commit.lean`, `Told.lean`).

## Plan per property

| Id | Property | How | Status |
|---|---|---|---|
| C01 | Buffer header encodes size and position for every size | header words as bit vectors; all sizes by bit-vector and arithmetic reasoning | proved |
| C02 | Typed buffer writes read back exactly | lists of typed fields, induction over the list | proved |
| C03 | Checked buffer operations never leave the buffer | case analysis on each operation, induction over operation sequences | proved |
| C04 | Bulk read is bounds checked | positive part for sources that are long enough; refuted by a witness with outcome `ub` | partial |
| C05 | Server configuration survives serialization | round trip over the buffer model | proved |
| C06 | Cluster configuration survives serialization | round trip over the buffer model | proved |
| C07 | Snapshot descriptor survives serialization | round trip over the buffer model | proved |
| C08 | Snapshot transfer request survives serialization | round trip over the buffer model | proved |
| C09 | Log entry survives serialization | round trip over the buffer model | proved |
| C10 | RPC request arrives as sent | round trip of frames | proved |
| C11 | RPC response arrives as sent | round trip of frames | proved |
| C12 | A malformed RPC frame cannot corrupt the receiver | exact condition under which parsing stays inside the frame; witness frames | partial |
| C13 | Consecutive RPC frames do not run into each other | induction over the list of requests, parser lemma generalised over the rest of the stream | proved |
| C14 | The file log store behaves as a log | refinement of the file-level store to an abstract log, invariant by induction over operation lists | partial |
| C15 | Closing and reopening the store loses nothing | refinement, reopening from the files | partial |
| C16 | Range reads return exactly the range | refinement; witness | partial |
| C17 | write_at truncates and replaces | refinement; witness | partial |
| C18 | Compaction keeps the rest of the log | refinement | proved |
| C19 | Packed entries arrive unchanged | refinement | proved |
| C20 | The entry cache never serves stale data | cache invariant; witness | partial |
| C21 | A crash while appending leaves an openable store | crash = prefix of the file effects; witness | partial |
| C22 | A crash while compacting leaves an openable store | crash = prefix of the file effects; witnesses | partial |
| C23 | A failed read does not disable the store | sticky failure bit of the streams; witness | partial |
| C24 | Term never goes backwards | invariant of histories of one server, by preservation lemmas composed through the monad; witness | partial |
| C25 | At most one vote per term | as C24 | partial |
| C26 | A vote is saved before it is announced | as C24 | partial |
| C27 | Votes go only to candidates with an up-to-date log | exact decision for every state and request; witness | partial |
| C28 | Pre-vote is side-effect free | frame condition for every state | proved |
| C29 | AppendEntries makes the log agree with the message | every state and request | proved |
| C30 | Duplicate or delayed AppendEntries lose nothing | every state and request | proved |
| C31 | Requests from an old term have no effect | every state and request; witnesses | partial |
| C32 | Only the leader accepts client commands | every state and request | proved |
| C33 | Commit index never moves backwards | as C24 | partial |
| C34 | Commands are applied in log order, once, without gaps | as C24 | partial |
| C35 | The leader's commit index is backed by a majority | invariant of histories with a ghost record of the answers | proved |
| C36 | A leader commits by counting only entries of its own term | `PropsLeader.lean` (the violation) and `PropsCount.lean`: new entries of a leader carry its term (C83), a leader takes no entries from append requests of its own or an earlier term nor packs, and a walk over what it handles. | partial |
| C37 | Becoming leader needs a majority of votes of the current term | invariant of histories; witness | partial |
| C38 | One membership change at a time | exact decision for every state; witness histories | partial |
| C39 | Applying a configuration yields exactly its peers | every state and configuration | proved |
| C40 | Election safety | cluster transition system, refinement of every handler to an abstract protocol, inductive invariants, quorum intersection | proved |
| C41 | Log matching | as C40 | proved |
| C42 | Leaders only append | as C40 | proved |
| C43 | Entries stored by a majority in their own term survive | as C40 | proved |
| C44 | State machine safety | as C40 under four conditions on the execution; four witness executions, each violating one condition only, checked by the kernel | partial |
| C45 | No server shuts itself down in a healthy protocol run | as C40, every handler runs to its end; two witness executions | partial |
| C46 | is_leader is withdrawn when the majority is silent | model of the static variable; every state; witness history | partial |
| C47 | replicate_log reports acceptance | every state | partial |
| C48 | A transferred snapshot is reassembled exactly | induction over the blocks, leader and member together | partial |
| C49 | Compaction after a snapshot keeps reserved entries | every state | proved |
| C50 | An async result is delivered exactly once | interleaving model, invariant; witness schedule | partial |
| C51 | get() never hangs after the result is set | as C50 | partial |
| C52 | Heartbeat back-off stays within bounds | invariant of histories | partial |
| C53 | One outstanding request per peer | account of requests, answers and marks over histories; witness history | partial |
| C54 | A committed entry wakes the commit thread | interleaving model with fair executions; witness schedule | partial |
| C55 | A cancelled timer does not fire | interleaving model, invariant; witness schedules | partial |
| C56 | A leader can bring up a member with the snapshot it has made | every state; witness history | partial |
| C57 | Snapshots go on | every state; witness history | partial |
| C58 | replicate_log appends only as leader | server steps interleaved with the calling thread; witness executions | partial |
| C59 | The destructor of a server returns | as C54 | partial |
| C60 | A leader that has compacted its log can bring up an empty member | every state | partial |
| C61 | A snapshot transfer ends although answers are lost | loop of states | partial |
| C62 | An exception in a handler costs no worker thread | counting invariant | partial |
| C63 | One snapshot at a time | invariant of histories | proved |
| C64 | Stopping the service returns | as C54 | partial |
| C65 | A leader stays leader for its term | invariant of histories; witness | partial |
| C66 | Every request sent through the client has one outcome | `Conc/Client.lean`: the socket of `asio_rpc_client`, one small step per completion, any number of requests. Invariant: a handler has been called once for each request that is done, and for no other. For requests sent one at a time a measure falls in every step. Refuted by an execution with three requests. | partial |
| C67 | An answer reaches the request it answers | Same model; for requests sent one at a time the invariant `Single` fixes what is on the wire. Refuted by an execution with two requests and no failures. | partial |
| C68 | The client recovers | Same model; `Healing` says that once the network works at most one call is an error. Refuted by two executions. | partial |
| C69 | Every legal address gives a client | `Rpc/Endpoint.lean`: the regular expression as a language, and a function that decides it; the two agree for all strings. RFC 1123 labels as the independent specification. | partial |
| C70 | append_entries tells the truth | `Raft/Forward.lean`: the calls of the application and `rpc_clients_`. Follows from C32's theorem about client requests, at the caller or at the server that answers. | proved |
| C71 | Calls reach the leader at its configured address | Same model; invariant over all lists of inputs and calls: the clients kept for a server are for its address. Refuted by two histories. | partial |
| C72 | Requests to a member go to its configured address | `Raft/Named.lean`: an invariant of all handlers with a predicate on descriptions of servers as parameter: no handler makes up a description. Here the predicate is 'has the address of its id'. Refuted by a history. | partial |
| C73 | An address that is not legal does no harm | Same invariant with the predicate 'has a legal address'. Refuted by a history, for every notion of legal. | partial |
| C74 | A server that is added gets the log of the leader | `Raft/PropsJoin.lean`: the exchange between two servers as an inductive relation that needs an end for every behaviour of the commit thread; induction on the number of committed entries the new server lacks. Refuted by two histories. | partial |
| C75 | A server that cannot be reached does not block membership changes | `Raft/PropsLeave.lean`: one failure in closed form, then induction on the distance of the heartbeat interval from its bound. Refuted for all numbers of failures. | partial |
| C76 | A server that has agreed to leave ends | `Raft/Steady.lean`: all handlers but three leave the counter `steps_to_down_` alone; then the two timeouts in closed form. | proved |
| C77 | A member that has not been removed stays | Invariant of all histories without requests to leave: the counter is 0; an election timeout then writes no configuration. Refuted by a history. | partial |
| C78 | add_srv and remove_srv tell whether the change has begun | `Raft/PropsChange.lean`: by cases on the state of the leader; the exact conditions under which the request is accepted are spelled out. | proved |
| C79 | A member that is behind is brought up to date | `Raft/PropsCatch.lean`: one round in closed form on both sides; refusals lower the next index (induction on it), then each acceptance raises the length on which the logs agree (induction on what is missing). `Cluster/PropsCatch.lean`: the hypotheses follow from the invariant of the cluster. | partial |
| C80 | A command is announced before it is committed or rolled back | `Raft/Tell.lean`: a walk over all handlers that carries an invariant of the effects so far and the log; here: the commands of the log are announced. Refuted by histories. | partial |
| C81 | An announced command is committed or rolled back | The same walk with the invariant that an unsettled command is in the log (or cut off its front). Refuted by a history. | partial |
| C82 | Membership changes wait for the one before | `Raft/Waits.lean`: a walk over all handlers: the flag is set if a configuration gets into the log and is reset only when one is applied or overwritten. `Raft/PropsWaits.lean`: induction over the history; the constructor looks for configurations that wait. Refuted by histories. | partial |
| C83 | Only a leader creates log entries | `Raft/Own.lean`: a walk over all handlers: unless it is leader (before, and therefore also at the time), a server leaves its log as it is. `Raft/PropsOwn.lean`: the inputs, following when the role changes. Refuted for all states by `late_answer_appends`, and by a history in which the command of a leader is lost. | partial |
| C84 | When no membership change is pending the next one is accepted | `Raft/Free.lean`: a walk over all handlers that cut nothing off the log: configurations go on waiting, and the flag is set only together with a configuration that is put in the log. `Raft/PropsFree.lean`: by hand those that overwrite, compact and apply; the constructor; induction over the inputs. Refuted by two histories. | partial |
| C85 | Commands reach state machines and other members from their first byte | `Conc/Share.lean`: one entry of one server: its buffer objects (the model of `buffer`), the one the log store keeps, the threads in calls of the state machine and in `send`. `Conc/PropsShare.lean`: every object holds the command; an object at position 0 remains there while the state machine does not use it; induction over the steps. Refuted by three interleavings. | partial |
| C86 | The cookie of a command comes back with it | `LogStore/Cookie.lean` puts next to the store of `LogStore/Model.lean` the cookies of the objects in the cache. Reads leave the cache alone (`KeepsCache`); an invariant counts the entries appended since (`Since`). | partial |
| C87 | The handlers of the other server get the request that was made | `Link/Model.lean` ties the messages of the server model to payload buffers: `wire` builds them as the code that makes the request, `unwire` reads them as the handlers do. `sent_received_partial` composes the codec theorems (C05-C09), the frame theorems (C10) and `unwire`. `Raft/Shape.lean` proves by induction over histories that servers only send requests of the right form, which gives `server_sent_received_partial` for whole runs. `block_cut` says exactly what arrives of a snapshot block. | partial |
| C88 | What a leader sends to replicate commands is small enough to be received | `Raft/Few.lean` (generated walk over all handlers) proves that in any history no request has more entries than the parameter allows; with a bound on entries this bounds the frame, and C87 applies. `sends_again` proves by induction that a leader whose requests to a member fail sends the same entries again; with C10 (frames above the limit are refused) this gives `batch_refused` for any number of attempts. | partial |
| C89 | A server without a leader keeps trying | `Raft/Stand.lean` (generated walk over all handlers) proves that every input keeps: timer runs, or leader, or open round. `Raft/PropsStand.lean` gives closed forms of the timeout and of the last refusal, and an induction over all inputs while one member is silent. `Cluster/PropsStand.lean` proves that servers with open rounds stay so for ever, and evaluates a script that leads there from the start. | partial |
| C90 | The state machine gets commands and snapshots one after the other | `Conc/Apply.lean`: one action per access of a thread to the applied index, the commit index, the log or the state machine. Invariant over all schedules that relates the position of the state machine to the place of each thread. Schedules for the violations are evaluated, and a decision procedure for the specification, proved complete, shows that they violate it. | partial |
| C91 | Snapshots do not change what the cluster guarantees | `Cluster/Wide.lean` gives the executions, `Raft/Held.lean` walks all handlers and shows that configurations always name the members (also those in snapshots and logs), `Cluster/WideInv.lean` ties the histories of the servers together (every input is one that another server sent; the votes a leader counted were announced by the voters), `Raft/Crown.lean` shows that a leader has announced itself. Two majorities share a voter, and `one_vote_per_term_partial` says that it voted once. The violation is a script that the model executes. For compacted logs (`Cluster/CutSpec.lean`) each server is related to one that still has the entries it has compacted: `abs pre s` puts them before the log. Every handler is walked again with this relation (`CutLocal`, `CutLead`, `CutVote`, `CutReq`, `CutAll`): it makes the moves of the abstract protocol of C40-C44, writes nothing before the log begins, and leaves the log non-empty; the end of a snapshot moves entries from the log to `pre`. The invariants of C40-C44 then hold for the logs with their compacted parts (`CutInv`, `CutCommit`). `Raft/Wait.lean` and `Cluster/CutWait.lean`: while a server waits for a snapshot, no second one is asked for, so its end is not above what was applied and not below the start of the log. `Cluster/CutTold.lean` follows the records of leaders as `Cluster/Told.lean` does. | partial |
| C92 | What is logged reaches the log file | `Conc/Logger.lean`: one action per access of a thread (lock, swap, write of a line, test of the flag, steps of `stop`). Invariant: file, lines taken by the owner of the mutex, and buffer together are the lines to keep. A second invariant says that until `stop` cancels the timer a wait is pending or a call of the handler is coming. A third one, that before 1000 hours have passed there is one call only. The early return of `stop` is an evaluated schedule. | partial |
| C93 | A listener serves each connection in turn, until it is stopped | `Conc/Listener.lean`: the accept of the listener, and for each session the operation that is pending; an action for the end of an operation and for the run of its handler. Invariant over all executions: requests sent = requests answered, the one in work, and those not read; and an accept is pending or its handler is to run while the acceptor is open. | partial |
| C94 | Membership changes keep the guarantees of the cluster | `Cluster/Change.lean` extends the executions of `Cluster/Spec.lean` by requests to add and to remove servers, invitations, log packs, snapshots, retries, and servers that start with different configuration files. The scripts `growScript` and `shrinkScript` are evaluated by the kernel. The positive part reduces to C26 and C37 for each server (`Cluster/ChangeInv.lean`); answers are those the handlers return (`Raft/Mute.lean`). | partial |
| C95 | Threads that use a server do not block each other for ever | `Conc/Locks.lean` gives every function of the server, of the log store and of the service as a program of guard scopes with alternatives and loops, where every scope may be left early; a thread runs any trace of an entry point. `check` types the programs by an order of the mutexes, `trace_good` (induction on traces) carries it to traces, `Inv` (kept by every step) to states. `go_or_wait`: a blocked thread waits for one that has a higher mutex; the order is finite. `all_finish` counts the actions left. | proved |
| C96 | No thread takes a mutex in a way that the standard does not allow | Invariant of C95; the violation is a complete run of `handle_peer_resp` in which a server wins an election. | partial |
| C97 | Members of a server are not used by one thread while another one changes them | `check` also demands the mutex that protects a member; two threads cannot have it at the same time (`guard_race`). The violations are runs of two threads, each complete. | partial |
| C98 | A compaction that fails leaves the log as it was | `LogStore/Disk.lean` models `compact` on a directory of six files and six streams, where each call may fail by its line. `compact_start`, `work_ok` and `restore_lost` compute the run for any file contents; what is on disk then is opened with the model of C14. | partial |
| C99 | A compaction that reports success has removed exactly the entries up to the given index | `restore_not_true`: the restoring code never returns true; `work_ok`: without a failure behind the backups the result is that of the model of C18, `compact_part`, `compact_all`. The violation runs `clearPart_short` for every log of entries of one size. | partial |
| C100 | An answer to a request is handled by an object that still exists | `Raft/PropsLife.lean`: the relation `Lf` is preserved by every handler (`lfWalk`), which gives the positive part for all histories; the violations follow for all states from C39 and the step to a new term, and for concrete histories. Which pointers own a peer is read off the code (comment at the top of the module); the model has no freed objects and treats an answer without a peer as no change. | partial |
| C101 | A majority can always make progress | `Cluster/PropsProgress.lean`: from any reachable state the execution is constructed: a member that leads is deposed, the member with the best log stands until its term is above all others (`Progress`), collects the votes (`Elect`, `Poll`, `Lead`), accepts the request, and brings each member up to date in finitely many rounds (`Gather`, `Collect`: induction on the index it sends from, first down, then up), with the commit index following from the answers of the majority; then entries are applied one by one (`Finish`); a cluster of one server is the easy case (`Alone`). The invariants of reachable states (one leader in a term, logs that match) come from the safety proof of C40-C45. | partial |
| C102 | Settings are respected, and every setting that is accepted works | `Raft/Settings.lean` models `raft_params` with its values as they are, the calls that fill it and the arithmetic on them; `Settings.params` gives the parameters of the server model. `Cluster/PropsSettings.lean`: the bounds come from the invariants of all histories (C52, `Hist.few`); `Cluster/Stall.lean` shows by induction over the executions of a cluster that with 0 entries in requests each server has only entries of terms it led itself, that accepted answers acknowledge no entry, and so that no commit index advances. `Cluster/PropsPack.lean` and `LogStore/PropsPack.lean` treat packs with a number of entries that is not positive. | partial |
| C103 | Messages in the log are complete and right | `Text/Model.lean` has `snprintf` for the conversions that occur, and the table of all calls with format, buffer size and types of arguments, taken from the source by a script. `Text/Props.lean`: a bound for the length of a message by induction on its format, for all values of the arguments; it is then evaluated for each entry of the table (all there are, not a sample). | partial |
| C104 | Only what the state machine has read is sent as a snapshot | `Raft/Blocks.lean` goes through all functions: each request that is sent with a block has been asked from the state machine. `Raft/PropsRead.lean` has the property over histories, the decision for one block, and the runs in which it fails. | partial |
| C105 | A server that has been told to end takes no further part | `Raft/Return.lean` has the functions that call `system_exit`, with a call that returns. `Raft/PropsReturn.lean` compares them with the main model, in which such a call ends the process, and shows what each call leads to; histories from the start with `HistR`. | partial |
| C106 | The event listener knows whether the server leads | `Raft/PropsEvents.lean`, with the walk in `Raft/Events.lean`. `Since` are the histories of a server between a start and the end of the process; `lastTold` is the last of the two events among the effects. The walk carries what the listener thinks and the role together: `leader_was_announced` needs no condition on the inputs. For the converse, the walk also shows that no leader has a pre-vote open, because otherwise an answer to it makes the leader a candidate (`become_candidate` raises no event); this needs that votes are not counted while a pre-vote is open, which holds trivially if pre-votes are disabled. The role is set to follower without an event at raft_server_req_handlers.cxx 611: `invited_leader_is_silent`. | partial |
| C107 | The heartbeat of a removed member does no harm | `Conc/PropsPeerTimer.lean`, on `Conc/PeerTimer.lean`: the timer of C55, the lock of the server, and the life of the peer that the task refers to. `bad` records the worker threads that use the peer after its end. The invariant says that after the end the flag is set, that nobody schedules the task again, and that the waits past the test of the flag are among those that were so when the peer ended. | partial |
| C108 | Copies of buffers, and buffers on streams | `Buffer/PropsStream.lean`, with the two operators in `Buffer/IO.lean`. The size goes through `int` as in the code (`availInt`), with an explicit undefined-behaviour outcome for accesses outside the block. | proved |
| C109 | Whatever bytes a payload has, decoding it does no harm | `Codec/PropsDecode.lean`: a rule for decoders that run one after the other (`Dec.bind`) carries, for every outcome, the bytes the object is made of. `LogStore/PropsPackBytes.lean`: every step of applying a pack can only throw, except the two writes whose lengths come from the pack. | partial |
| C110 | Servers in one process do not affect each other | `Raft/Indep.lean` shows for every handler, by induction on its code, that what it does does not depend on the variable and that it leaves it alone, except for requests of clients and `replicate_log`. `Raft/PropsProcess.lean` models servers that share the variable; the projection of an execution to one server is a history of that server alone (`Hist`), by induction over the execution. So all theorems about histories hold for such servers. | partial |
| C111 | An append that fails leaves the log as it was | `Verif/LogStore/Full.lean` is append with four calls that may fail after any number of bytes. `failed_append_unseen_partial` (failures of operator<<) and `failed_append_nothing_written` are the positive parts; `failed_append_seen` and `failed_append_reopened` say for every store and entry what is shown after a failed flush and on the files. The files after a failure are those after a crash of C21, so its theorem about opening is used. | partial |
| C112 | Calls of different threads on a log store take effect one after the other | `LogStore/Threads.lean` cuts each function at its uses of the cache and keeps the owner of `store_lock_`. `whole_calls_in_turn` is a simulation whose effect is at the last step of the call; it uses that the parts of a call in sequence are the function of `LogStore/Model.lean`. `gentle_calls_in_turn_partial` is a simulation with the ideal log in which an append takes effect when its entry gets into the cache; the invariant says what the files, the cache and the counter are in each phase of an append, and what readers know. The violations are schedules that are played by the kernel (`Sys.play_exec`), together with `explained_answer`: what an explanation could have answered. | partial |
| C113 | Append and snapshot requests of a term come from its leader | `Raft/Sender.lean`: a walk over all handlers that keeps, for the effects of a handler in order, that a request carries the term the server leads or has taken the lead of before in the same handler. It uses `Frame` (what the loops over the peers send) and the looks at the role in each handler. `Raft/PropsSender.lean`: histories by induction, a crash keeps a prefix of the effects; the violation is a history played by the kernel. `Cluster/PropsSender.lean`: with the invariant of `Cluster/WideInv.lean` and one leader per term (C91). | partial |
| C114 | A crash while an entry is overwritten leaves the log before or after | `LogStore/PropsCrash.lean`: the effects of `write_at` on the files, byte by byte and then the two cuts; `write_effects` ties them to the model of the function. At least as many bytes as before are read with the old positions as some entries (`reread`), since any nine bytes and more are an entry; opening such files is `open_ok`. | partial |
| C115 | An overwriting that fails leaves the log as it was | `LogStore/FullWrite.lean` is `write_at` with failing calls; without failures it is the model used before (`writeAtF_none`). `LogStore/PropsFullWrite.lean` runs it from any reachable store; the files are compared with the effects of C114. | partial |
| C116 | A server that reports logs_catch_up has caught up | `Conc/CatchUp.lean` is the model of the commit thread of C54 with the call of the listener as a step of its own and a record of what was true at each call. `Conc/PropsCatchUp.lean`: induction over executions. `Raft/PropsBehind.lean`: the history of a server. | partial |
| C117 | A crash while a pack is applied leaves the log before or a prefix of the pack added | `LogStore/PropsPackCrash.lean`: the files after a crash are the old ones with a prefix of the new positions and a prefix of the new data; `pack_effects` ties the complete ones to the model of `apply_pack`. Opening: induction over the positions read by `fill_buffer`, whatever the data is. | partial |
| C118 | A pack that cannot be applied leaves the log as it was | `LogStore/FullPack.lean` has `apply_pack` on streams that take a given number of bytes. `LogStore/PropsFullPack.lean`: induction over the positions for the loop that rewrites them, with a stream that fails in the middle of any of them; the files are those of C117, whose theorems say what the store shows when it is opened again. | partial |
| C119 | Closing a store keeps its log | `LogStore/Close.lean`: the streams are failed from `close` on. `LogStore/PropsClose.lean`: each call changes nothing, or throws before it changes anything, on failed streams; composed from the same two facts about operations of streams. Then induction over the calls. | partial |
| C120 | Log lines show the time of the call and are in order of time | `Conc/Stamp.lean`: each access to a field of the shared std::tm is one step, in any order. `Conc/PropsStamp.lean`: invariants over executions for the fields, for one thread that runs alone, and for the clock; schedules for the violations. | partial |
| C121 | A snapshot that is applied has been sent as a whole | `Raft/Offsets.lean`: a walk over all handlers: the offset of each transfer is 0 or was named by an answer that was handled while the same snapshot was being sent. `Raft/PropsHoles.lean`: induction over histories; the bytes before every offset are covered by blocks sent before. | partial |
| C122 | The heartbeat timers run exactly while the server leads | `Raft/Beat.lean`: a walk over all handlers for two invariants (all timers of a leader run, except those of a given set of members; no timer of a follower runs). `Raft/NoBeat.lean`: another for servers without pre-votes (no timer of a server that is not leader runs). `Raft/PropsBeat.lean`: induction over histories, the set being the members for which a heartbeat has ended by an exception. | partial |
| C123 | A leader is not ended by its own election timer | `Raft/NoRing.lean`: a walk over all handlers for the invariant. `Raft/PropsRing.lean`: induction over histories. | partial |

## Where the code disagrees with the properties

Each item names the theorem that shows it. "Invitation" is a join request as handled by `handle_join_cluster_req`.

Buffers, frames, log store

* `buffer::get(bufptr&)` copies as many bytes as the target has, without looking at the source (`C04_bulk_get_unchecked`).
* A frame whose entry announces more bytes than are left makes the receiver read outside the frame (`C12_overrun_reads_outside`,
  `C12_witness`); a message type outside the table indexes outside of it (`C12_type_out_of_table`).
* Replacing the last entry by a shorter one leaves old bytes behind which come back after reopening (`C17_not_stale_bytes`).
* `write_at` before the cached part leaves stale entries in the cache (`C20_not_stale_cache`); a range that ends before the cached
  part returns too many entries (`C16_not_overrun`); cache size 0 makes a non-empty store unopenable (`C15_not_cache_zero`).
* Crashes while appending or compacting leave stores that cannot be opened or have lost entries (`C21_not_openable`,
  `C22_not_all`, `C22_not_part`). `term_at` past the end disables later appends (`C23_not_term_at`).
* `log_store.hxx` asks `term_at` of a missing entry to return 0; `fs_log_store` throws instead. The server relies on the former.

One server

* An invitation lowers the term, clears the vote, resets commit and applied index, makes commands be applied again and deposes
  a leader of the same term (`join_lowers_term`, `join_allows_second_vote`, `join_resets_commit_index`, `join_repeats_commands`,
  `join_deposes_leader`). Nothing checks who sends it.
* Votes ignore a snapshot when the log behind it is empty (`vote_ignores_snapshot`).
* Append requests of an old term end the process of a server that has compacted the named index (`stale_append_kills`); old
  snapshot requests are installed while catching up (`stale_snapshot_installed`). Installing a snapshot can lower the commit index
  (`snapshot_lowers_commit_index`).
* A leader commits entries of earlier terms by counting (`leader_commits_entry_of_earlier_term`), votes of removed servers count
  (`removed_server_vote_counts`), and the flag that guards membership changes does not (`two_changes_at_once`,
  `third_change_accepted`); it is also reset when the leader gives up a new server (`given_up_forgets_change`). It remains set when
  a configuration is cut off behind an overwritten entry or covered by a snapshot, and then blocks all changes
  (`cut_change_blocks`, `covered_change_blocks`).
* The answer of a server that was asked to leave makes any server append a configuration, also if it is no leader any more
  (`late_answer_appends`); with the index and the term of a command of the present leader, which is then lost
  (`late_answer_hides_command`).
* `is_leader` keeps its answer for ever once it has found a majority (`is_leader_stuck`, `silent_leader_stays`), and times wrap
  (`is_leader_wraps`). The static variable is shared by all servers of a process, see C110.
* `replicate_log` never returns true (`replicate_log_false`), and races with the handlers (`follower_appends`,
  `older_term_appended`).
* A server that becomes leader again forgets which requests are outstanding (`two_requests_outstanding`).
* Clients are kept for ever: calls and requests go to an address the member no longer has (`forwarded_to_old_address`,
  `sent_to_old_address`), or are refused for ever (`never_forwarded`). `add_srv` with an address that `create_client` refuses
  makes the leader call through a null pointer (`illegal_address_crashes`).
* A server that joins keeps its own log and applies its entries (`own_entries_applied`). A server that has been a member before
  cannot be added again if more than one pack is needed (`former_member_stuck`).
* A server that is asked to leave by a leader that crashes takes itself out of its configuration although it is a member
  (`member_leaves`). Nothing ever resets `steps_to_down_`. With a back-off of 0 a server that cannot be reached is never removed
  (`unreachable_stays`).
* `replicate_log` appends commands that the state machine is not told of (`replicated_not_announced`), and so do restarts
  (`restarted_not_announced`). When a new leader replaces several commands, only the first of them is rolled back
  (`overwritten_not_rolled_back`).
* A negative back-off lowers the heartbeat interval (`hb_interval_falls`).
* A negative `log_sync_batch_size_` sends a joining server also uncommitted entries, which it commits (`negative_batch`,
  `uncommitted_committed`); size 0 makes the leader throw (`unusable_batch`).

Snapshots

* A snapshot the leader has made itself has size 0 and cannot be sent: the leader exits (`own_snapshot_kills_leader`). From 2^31
  bytes on sending throws (`snapshot_too_large_throws`). A lost answer makes leader and member repeat the same exchange for ever
  (`lost_ack_resends_forever`). A member with an empty log is never served by a leader that has compacted
  (`empty_member_left_behind`). After a server has received a snapshot, its own snapshots stop (`snapshots_stop`).
* The test whether more blocks follow compares an offset in bytes with a log index (raft_server_resp_handlers.cxx 175).

Cluster

* State machine safety fails in four independent ways: a leader commits an entry of an earlier term by counting
  (`state_machine_safety_fails_lead`, Figure 8 of the Raft paper); a follower takes over a commit index beyond the entries it was
  sent (`state_machine_safety_fails_follow`); `become_leader` does not reset what is known about the entries of the others
  (`state_machine_safety_fails_again`); late positive answers of earlier terms are counted (`state_machine_safety_fails_late`).
  With all four excluded it holds (`state_machine_safety_timely_partial`).
* Servers end their processes in runs without faults (`shutdown_late_timer`, `shutdown_late_answer`).

Threads

* `async_result` calls its handler twice, or returns an unset result (`handler_called_twice`, `get_returns_unset`,
  `throwing_handler_blocks_get`, `get_from_handler_unset`). `throw err_` throws a `shared_ptr`, not an exception object.
* Notifications are lost because flags are set without the mutex (`wakeup_lost`, `destructor_hangs`, `destructor_deadlock`,
  `destructor_misses_end`, `destructor_returns_early`, `stop_hangs`).
* A cancelled timer task executes, and an old expiry executes a task that has been scheduled again (`cancelled_task_executes`,
  `old_expiry_executes`).
* An exception in a handler ends a worker thread for good (`exceptions_end_workers`, `service_dies`).
* The RPC client mixes up answers, loses one, and fails once more after the server is back (`answer_of_another`,
  `request_without_outcome`, `next_request_fails`, `two_requests_one_fails`). Host names with a hyphen in the last label get no
  client (`hyphen_refused`).
* Commands are passed to `commit` from wherever the buffer's position is, and the position is shared with the threads that send the
  entry: state machines can get a part of the command, or nothing, and other members can receive a shifted command (`commit_given_rest`,
  `read_twice`, `sent_broken`). `snapshot_and_compact` reads a configuration without rewinding its buffer (`conf_read_again`).
* Cookies of commands that are not committed yet are lost when the log is compacted or a bounded cache overflows
  (`cookie_lost`).
* Snapshot blocks are sent from the position at which the state machine leaves the buffer (C87). `create_sync_snapshot_req` does not
  rewind the buffer that `read_snapshot_data` has filled; a state machine that fills it with `put` sends empty blocks (C104).
* A leader limits requests by the number of entries, sessions by 16 MiB (C88). Two commands of 9 MiB that wait for the same member
  are sent in one request, which is refused, again and again.
* With pre-votes enabled the election timer is off while a round is open, and the round ends only when all members have answered: with one member down, a cluster can remain without leader for ever although a majority is up (C89).
* The commit thread and the handler that installs a snapshot share `sm_commit_index_` without a lock: a snapshot that arrives while entries are applied can be applied during a command, be followed by a command it contains, give a command a wrong index, let an uncommitted entry be applied, or end the process (C90).
* A server whose log is empty behind its snapshot votes for anyone: an entry that was committed and applied is replaced by another one (C91, `snapshot_loses_committed_entry`, `snapshot_makes_commands_differ`).
* C92: the flush timer of the loggers is set to 1 s once and then to 1000 hours (`asio_service.cxx` 596, 628); what is logged after the first second is in the file only after `stop` or 1000 hours, and `stop` can return before that.
* C93: `asio_rpc_listener::stop` closes the acceptor only; `active_sessions_` is never filled (`asio_service.cxx` 323-373), and open connections are served on.
* Membership changes: configurations are used when they are applied, and votes of removed servers count; two servers lead the same term and commit different commands at the same index (C94, `added_servers_split_cluster`, `removed_server_splits_cluster`).
* Mutexes (`Conc/Locks.lean`): programs decide freely where the code decides by its state, so they have every sequence of actions of the code, and more. `read_snapshot_data` is taken to use no mutex of the server (it is called with the mutex of a peer taken).
* C96 is violated: `handle_voting_resp` (220-237) calls `become_leader` within its guard of `peers_lock_`, and so do `handle_prevote_resp`, `handle_append_entries_resp` and `request_append_entries` for `commit` and others; each shares the mutex a second time, which is undefined for `std::shared_timed_mutex`. By C95 it does not block, whatever the implementation prefers, because writers need `lock_`.
* C97 is violated: `send_msg_to_leader` (993, 1013) copies the pointer `config_` without `lock_` while `reconfigure` (786) replaces it in the commit thread; `snapshot_and_compact` (553-579) reads `last_snapshot_` and `config_` without `lock_` while `handle_snapshot_sync_req` (req_handlers 380-388) replaces them; copying a `shared_ptr` that is replaced at the same time may use freed memory. Also `role_`, `leader_`, the term, the commit indices, `last_resp_` and `current_hb_interval_` are used without a common mutex.
* C98 is violated: line 823 of `fs_log_store.cxx` opens the backup of the data (`data_bak_path`) instead of the data file. This empties the backup, and because the data file was removed the next `open` fails, so that `compact` throws with an empty index file, no data file and an empty backup: the log is lost whenever restoring is needed.
* C99 is violated: `compact` (697-702) does not check that the backups were written. If the data does not fit into its backup, the stream of the backup has failed, `seekg` (757) does nothing, no byte is moved (759), and the truncated data file with the rewritten index holds the oldest entries under the indexes of the newest.
* C100 is violated: the handler that `peer::send_req` (peer.cxx 24) gives to the connection has the plain pointer `this`, and nothing keeps the peer until the answer arrives. `reconfigure` erases the peer of a removed server (raft_server.cxx 776), and `become_follower` resets `srv_to_join_` (487), while requests are on their way: `handle_rpc_result` then writes to a freed object. The destructor of `raft_server` (146-172) does not wait for answers either (not modelled).
* C105 is violated: `system_exit` is followed by `::exit` at nine of 20 places only. With a state manager that returns, as those of the tests do, a removed server keeps its peers and its timer and deposes the leader, a refused command is skipped, and null pointers are used (`raft_server.cxx` 194, 215, 575, 584, 668, 766, 813, 821, 841, 876, 946). All other properties take the call as the end of the process.
* C106 (the event listener knows whether the server leads): an invitation to join sets the role to follower without `become_follower`, so the listener of an invited leader still thinks that its server leads (`invited_leader_is_silent`). With pre-votes, a server that is elected by late votes while it asks for pre-votes can be made a candidate by a late answer, again without an event (`elected_during_prevote_is_silent`); it takes another leader of the same term.
* C107 is violated: the heartbeat task has a plain reference to its peer (peer.hxx 43, timer_task.hxx 24-46). A worker thread tests the flag of the task (delayed_task.hxx 49) and then waits for `lock_` (raft_server.cxx 375); meanwhile `reconfigure`, which holds `lock_`, cancels the task and destroys the peer (775-776). `late_heartbeat_uses_freed_peer` is the interleaving; `late_heartbeat_was_waiting` says that there is no other.
* A payload that has the id of a server and then no address (empty or not ended) makes the decoder build a string from a null pointer;
  four bytes sent to `add_srv` are enough (`lacking_server_undefined`). A pack that announces a negative length, or more bytes than it
  has, makes `apply_pack` read outside of it (`overstating_pack_undefined`).
* C110 is violated: the variable of `is_leader` (raft_server.cxx 1055) is static in the function, so the servers of a process share it. After one server has found that a majority answers, `is_leader` of all others gives their role (`majority_found_for_all`, `borrowed_majority`).
* C111 is violated: `append` (fs_log_store.cxx 286-294) puts the entry into the cache and counts it before the streams are flushed, so after a failed flush the exception leaves an entry in the log that is not in the files (`failed_append_seen`). The position of the entry may remain in the index file, and then the store cannot be opened (`failed_append_reopened`).
* C112 is violated: `last_entry` and the first parts of `entry_at` (fs_log_store.cxx 443), `term_at` (485-487) and `log_entries` (398) use the cache without `store_lock_`. While another thread is between the reset and the filling of the cache in `compact`, or between the writing and the caching in `append`, they take an entry to be in the files behind others when it is the last one, and read behind the end of the index file; the stream stays failed. The commit thread of a server calls `entry_at` and `term_at` without the lock of the server, and a state machine may report a snapshot, which compacts the log, from a thread of its own.
* C113 is violated like C83: `handle_ext_resp` does not look at the role. The late answer of a server that was asked to leave makes a follower send append requests with the term of the present leader (`late_answer_sends`). Without membership changes the property holds (`one_sender_with_snapshots`).
* C114: `write_at` overwrites the data before it cuts off the index file. After a crash in between, the old positions cut the bytes of the new entry; a client can choose a command whose bytes are then shown as an entry of any term (`write_crash_forges`).
* C115: `write_at` checks the streams after it has changed the cache and the count, and leaves the streams closed if `truncate` fails. A failed call may show the new log (`failed_write_seen`), or the old one until the store is opened again and then an entry that was never written (`failed_write_forges`).
* C116: the event `logs_catch_up` is delivered while committed entries are missing or not yet applied, since the test asks only whether there is an entry to apply now, and holds no lock (`told_with_entries_missing`, `told_too_late`).
* C117: `apply_pack` writes two files through separate buffers and has no means to tell afterwards whether both are complete. After a crash the last entry of the old log may have the bytes of the pack behind its payload (`pack_crash_extends`), or the store cannot be opened (`pack_crash_not_openable`).
* C118: `apply_pack` notices a full disk at its end and throws, and leaves what did fit in the files. The next start fails (`failed_pack_not_openable`) or shows the last entry with the pack behind its payload (`failed_pack_extends`).
* C119: `compact` of the whole log on a closed store empties the index and the data file and opens them, and then fails on the start index (`closed_compaction_loses`). Entries appended after that are numbered from the old first index when the store is opened again (`closed_compaction_renumbers`).
* C120: `write_log` uses the result of `std::gmtime`, which all threads of the process share. Two threads that log at the same time get mixed times: one that has not come yet (`stamp_from_future`) or an hour back (`stamp_hour_back`).
* C121: `handle_install_snapshot_resp` takes the offset from any accepted answer, whatever snapshot and term it is about. A late answer about an earlier snapshot makes the leader skip blocks of the later one, and the member applies it with bytes missing (`late_answer_skips_blocks`). It needs two requests of the same leader on their way, which `become_leader` allows, and answers that are handled in another order than they were sent, which several worker threads allow.
* C122: `handle_hb_timeout` sets the timer again only behind `request_append_entries`, so an exception in there (C60, or a snapshot of 2^31 bytes) ends the heartbeats for this member while the server leads (`heartbeat_stopped`). `handle_join_cluster_req` sets the role directly and does not stop the timers (`invited_leader_beats`), and `become_candidate` does not stop them when a late answer to a pre-vote calls it for a leader (`candidate_beats`); these timers expire once and do nothing.
* C123: `handle_prevote_resp` starts the election timer when the last pre-vote is refused, also for a server that leads by then, and `handle_election_timeout` ends a leader (`refused_prevotes_end_leader`). `delayed_task::execute` looks at `cancelled_` before the handler waits for `lock_`, so the expiry of a candidate that wins in this moment ends the new leader (`late_expiry_ends_leader`).
* Data races (not modelled apart from C97; the models take each access as atomic): `has_result_`, `quick_commit_idx_`, `sm_commit_index_`,
  `stopping_`, `log_flush_tm_`.

## Wrong programs

`seeded/LOG.jsonl` records experiments: in a copy of the project a definition of the model is edited as a realistic bug would,
everything is rebuilt, and what fails is listed (`failed`). Where a theorem should have failed and did not, it was tightened;
the entry says which. What an entry shows depends on its `outcome`:

* `property theorem fails`: the proof of a theorem of the manifest fails (`property_theorems_failed`).
* `lemma or example fails; ...`: only something below fails. The build stops there, so the property theorems that use it
  (`property_theorems_depending_on_a_failed_lemma`) lose their proof but were not checked again. This is weaker: it does not show that their
  statements are false of the edited model, and the proof of the lemma may fail for its form only. Most entries are of this kind.
* `not detected`: everything still builds.
* `undecided: ...`: a module did not build but no error was located in a theorem. `invalid: ...`: the edit itself does not compile. Neither is
  evidence for any theorem. Up to round 16 these were counted as detected, and all dependent theorems as failing.
