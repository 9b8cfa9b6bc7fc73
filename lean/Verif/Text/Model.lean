/-!
# Messages

`strfmt` and all places that use it: the format, the size of the buffer and the types of the arguments.
-/

namespace Cs.Text

/-- Types of arguments: `int32`/`int`; `ulong`; `size_t`; an element of `__msg_type_str` (raft_server.cxx 27-47); any other C string. -/
inductive ArgTy where
  | i32
  | u64
  | size
  | name
  | str
  deriving DecidableEq, Repr

/-- Arguments. -/
inductive Arg where
  | i32 (v : Int)
  | u64 (n : Nat)
  | size (n : Nat)
  | text (s : List Char)
  deriving DecidableEq, Repr

/-- `__msg_type_str`, raft_server.cxx 27-47. -/
def msgNames : List String :=
  ["unknown", "vote_request", "vote_response", "append_entries_request", "append_entries_response", "client_request",
   "add_server_request", "add_server_response", "remove_server_request", "remove_server_response", "sync_log_request",
   "sync_log_response", "join_cluster_request", "join_cluster_response", "leave_cluster_request", "leave_cluster_response",
   "install_snapshot_request", "install_snapshot_response", "prevote_request", "prevote_response"]

/-- The values of a type. An index outside `__msg_type_str` is not modelled here. -/
def Arg.Of : ArgTy → Arg → Prop
  | .i32, .i32 v => -2 ^ 31 ≤ v ∧ v < 2 ^ 31
  | .u64, .u64 n => n < 2 ^ 64
  | .size, .size n => n < 2 ^ 64
  | .name, .text s => ∃ x ∈ msgNames, s = x.toList
  | .str, .text _ => True
  | _, _ => False

/-- The arguments of a call have the types of a list. -/
def ArgsOf : List ArgTy → List Arg → Prop
  | [], [] => True
  | t :: ts, a :: as => a.Of t ∧ ArgsOf ts as
  | _, _ => False

/-- The conversions that occur. -/
inductive Spec where
  | d
  | llu
  | lld
  | s
  deriving DecidableEq, Repr

/-- A format is made of characters and conversions. -/
inductive Piece where
  | lit (c : Char)
  | conv (k : Spec)
  deriving DecidableEq, Repr

/-- A format string. Flags, widths and other conversions do not occur. -/
def parse : List Char → List Piece
  | '%' :: 'd' :: r => .conv .d :: parse r
  | '%' :: 's' :: r => .conv .s :: parse r
  | '%' :: 'l' :: 'l' :: 'u' :: r => .conv .llu :: parse r
  | '%' :: 'l' :: 'l' :: 'd' :: r => .conv .lld :: parse r
  | c :: r => .lit c :: parse r
  | [] => []

/-- Decimal digits. -/
def dec (n : Nat) : List Char := Nat.toDigits 10 n

/-- Decimal digits with a sign. -/
def decInt (v : Int) : List Char := if v < 0 then '-' :: dec v.natAbs else dec v.natAbs

/-- One conversion, C11 7.21.6.1; `none` if the argument does not have the type it needs, which is undefined behaviour. `uint64_t` is
counted as `unsigned long long` (both have 64 bits), and with `%lld` its bits are read as a signed number. -/
def Spec.show : Spec → Arg → Option (List Char)
  | .d, .i32 v => some (decInt v)
  | .llu, .u64 n => some (dec n)
  | .lld, .u64 n => some (decInt (if n < 2 ^ 63 then (n : Int) else (n : Int) - 2 ^ 64))
  | .s, .text x => some x
  | _, _ => none

/-- The whole text; `none` if it is undefined. -/
def render : List Piece → List Arg → Option (List Char)
  | [], _ => some []
  | .lit c :: ps, as => (render ps as).map (c :: ·)
  | .conv _ :: _, [] => none
  | .conv k :: ps, a :: as =>
    match k.show a, render ps as with
    | some x, some y => some (x ++ y)
    | _, _ => none

/-- A place that formats a message. -/
structure Site where
  file : String
  line : Nat
  /-- the size of the buffer, include/strfmt.hxx 44-45 -/
  room : Nat
  format : String
  args : List ArgTy
  deriving DecidableEq, Repr

/-- The text that was meant. -/
def Site.whole (s : Site) (as : List Arg) : Option (List Char) := render (parse s.format.toList) as

/-- `strfmt::fmt`, include/strfmt.hxx 33-38: `snprintf` writes at most N - 1 characters and a final 0. -/
def Site.fmt (s : Site) (as : List Arg) : Option (List Char) := (s.whole as).map (·.take (s.room - 1))

/-- All calls of `fmt` in src (there are none in include). -/
def sites : List Site := [
  ⟨"asio_service.cxx", 173, 200, "bad log data size in the header %d, stop this session to protect further corruption", [.i32]⟩,
  ⟨"asio_service.cxx", 194, 200, "failed to read rpc header from socket due to error %d", [.i32]⟩,
  ⟨"asio_service.cxx", 223, 200, "failed to read rpc log data from socket due to error %d", [.i32]⟩,
  ⟨"asio_service.cxx", 287, 200, "failed to send response to peer due to error %d", [.i32]⟩,
  ⟨"asio_service.cxx", 295, 200, "failed to process request message due to error: %s", [.str]⟩,
  ⟨"asio_service.cxx", 356, 100, "fails to accept a rpc connection due to error %d", [.i32]⟩,
  ⟨"asio_service.cxx", 422, 200, "failed to resolve host %s due to error %d", [.str, .i32]⟩,
  ⟨"asio_service.cxx", 487, 100, "failed to connect to remote socket %d", [.i32]⟩,
  ⟨"asio_service.cxx", 516, 100, "failed to send request to remote socket %d", [.i32]⟩,
  ⟨"asio_service.cxx", 545, 100, "failed to read response to remote socket %d", [.i32]⟩,
  ⟨"asio_service.cxx", 694, 100, "%d/%d/%d %d:%d:%d.%d\t[%d]\t%s\t", [.i32, .i32, .i32, .i32, .i32, .i32, .i32, .size, .str]⟩,
  ⟨"raft_server.cxx", 122, 100, "detect a configuration change that is not committed yet at index %llu", [.u64]⟩,
  ⟨"raft_server.cxx", 144, 30, "server %d started", [.i32]⟩,
  ⟨"raft_server.cxx", 198, 100, "stepping down (cycles left: %d), skip this election timeout event", [.i32]⟩,
  ⟨"raft_server.cxx", 259, 100, "prevote started with term %llu", [.u64]⟩,
  ⟨"raft_server.cxx", 295, 100, "send %s to server %d with term %llu", [.name, .i32, .u64]⟩,
  ⟨"raft_server.cxx", 304, 100, "requestVote started with term %llu", [.u64]⟩,
  ⟨"raft_server.cxx", 332, 100, "send %s to server %d with term %llu", [.name, .i32, .u64]⟩,
  ⟨"raft_server.cxx", 369, 100, "Server %d is busy, skip the request", [.i32]⟩,
  ⟨"raft_server.cxx", 376, 100, "Heartbeat timeout for %d", [.i32]⟩,
  ⟨"raft_server.cxx", 389, 100, "heartbeat is disabled for peer %d", [.i32]⟩,
  ⟨"raft_server.cxx", 395, 100, "Receive a heartbeat event for %d while no longer as a leader", [.i32]⟩,
  ⟨"raft_server.cxx", 558, 100, "creating a snapshot for index %llu", [.u64]⟩,
  ⟨"raft_server.cxx", 599, 100, "failed to compact logs at index %llu due to errors", [.u64]⟩,
  ⟨"raft_server.cxx", 614, 200, "failed to create a snapshot due to %s", [.str]⟩,
  ⟨"raft_server.cxx", 667, 100, "Peer's lastLogIndex is too large %llu v.s. %llu, server exits", [.u64, .u64]⟩,
  ⟨"raft_server.cxx", 684, 200, "An AppendEntries Request for %d with LastLogIndex=%llu, LastLogTerm=%llu, EntriesLength=%d, CommitIndex=%llu and Term=%llu", [.i32, .u64, .u64, .size, .u64, .u64]⟩,
  ⟨"raft_server.cxx", 700, 200, "system is reconfigured to have %d servers, last config index: %llu, this config index: %llu", [.size, .u64, .u64]⟩,
  ⟨"raft_server.cxx", 745, 100, "server %d is added to cluster", [.i32]⟩,
  ⟨"raft_server.cxx", 748, 100, "enable heartbeating for server %d", [.i32]⟩,
  ⟨"raft_server.cxx", 777, 100, "server %d is removed from cluster", [.i32]⟩,
  ⟨"raft_server.cxx", 781, 100, "peer %d cannot be found, no action for removing", [.i32]⟩,
  ⟨"raft_server.cxx", 810, 200, "system is running into fatal errors, failed to find a snapshot for peer %d(snapshot null: %d, snapshot doesn't contais lastLogIndex: %d", [.i32, .i32, .i32]⟩,
  ⟨"raft_server.cxx", 825, 100, "trying to sync snapshot with last index %llu to peer %d", [.u64, .i32]⟩,
  ⟨"raft_server.cxx", 838, 200, "only %d bytes could be read from snapshot while %d bytes are expected, must be something wrong, exit.", [.i32, .size]⟩,
  ⟨"raft_server.cxx", 874, 100, "bad log_idx %llu for retrieving the term value, kill the system to protect the system", [.u64]⟩,
  ⟨"raft_server.cxx", 924, 100, "config at index %llu is committed", [.u64]⟩,
  ⟨"raft_server.cxx", 944, 200, "background committing thread encounter err %s, exiting to protect the system", [.str]⟩,
  ⟨"raft_server_req_handlers.cxx", 27, 200, "Receive a %s message from %d with LastLogIndex=%llu, LastLogTerm=%llu, EntriesLength=%d, CommitIndex=%llu and Term=%llu", [.name, .i32, .u64, .u64, .size, .u64, .u64]⟩,
  ⟨"raft_server_req_handlers.cxx", 74, 200, "Response back a %s message to %d with Accepted=%d, Term=%llu, NextIndex=%llu", [.name, .i32, .i32, .u64, .u64]⟩,
  ⟨"raft_server_req_handlers.cxx", 96, 200, "Receive AppendEntriesRequest from another leader(%d) with same term, there must be a bug, server exits", [.i32]⟩,
  ⟨"raft_server_req_handlers.cxx", 150, 100, "revert from a prev config change to config at %llu", [.u64]⟩,
  ⟨"raft_server_req_handlers.cxx", 162, 100, "receive a config change from leader at %llu", [.u64]⟩,
  ⟨"raft_server_req_handlers.cxx", 177, 100, "receive a config change from leader at %llu", [.u64]⟩,
  ⟨"raft_server_req_handlers.cxx", 286, 100, "receive an unknown request %s, for safety, step down.", [.name]⟩,
  ⟨"raft_server_req_handlers.cxx", 305, 200, "Receive InstallSnapshotRequest from another leader(%d) with same term, there must be a bug, server exits", [.i32]⟩,
  ⟨"raft_server_req_handlers.cxx", 335, 100, "received a snapshot (%llu) that is older than current log store", [.u64]⟩,
  ⟨"raft_server_req_handlers.cxx", 412, 100, "retry the request %s for %d", [.name, .i32]⟩,
  ⟨"raft_server_req_handlers.cxx", 452, 100, "server %d does not exist", [.i32]⟩,
  ⟨"raft_server_req_handlers.cxx", 494, 200, "the server to be added has a duplicated id with existing server %d", [.i32]⟩,
  ⟨"raft_server_req_handlers.cxx", 542, 200, "LogSync is done for server %d with log gap %d, now put the server into cluster", [.i32, .i32]⟩,
  ⟨"raft_server_req_handlers.cxx", 646, 200, "removed a server from configuration and save the configuration to log store at %llu", [.u64]⟩,
  ⟨"raft_server_resp_handlers.cxx", 28, 100, "peer response error: %s", [.str]⟩,
  ⟨"raft_server_resp_handlers.cxx", 42, 100, "Peer %d not found, ignore the message", [.i32]⟩,
  ⟨"raft_server_resp_handlers.cxx", 47, 200, "Receive a %s message from peer %d with Result=%d, Term=%llu, NextIndex=%llu", [.name, .i32, .i32, .u64, .u64]⟩,
  ⟨"raft_server_resp_handlers.cxx", 76, 100, "Received an unexpected message %s for response, system exits.", [.name]⟩,
  ⟨"raft_server_resp_handlers.cxx", 91, 100, "the response is from an unkonw peer %d", [.i32]⟩,
  ⟨"raft_server_resp_handlers.cxx", 149, 100, "the response is from an unkonw peer %d", [.i32]⟩,
  ⟨"raft_server_resp_handlers.cxx", 179, 100, "continue to sync snapshot at offset %llu", [.u64]⟩,
  ⟨"raft_server_resp_handlers.cxx", 202, 100, "Received an outdated vote response at term %llu v.s. current term %llu", [.u64, .u64]⟩,
  ⟨"raft_server_resp_handlers.cxx", 215, 100, "Duplicate vote from %d for term %lld", [.i32, .u64]⟩,
  ⟨"raft_server_resp_handlers.cxx", 234, 100, "Server is elected as leader for term %llu", [.u64]⟩,
  ⟨"raft_server_resp_handlers.cxx", 245, 100, "Prevote has completed, term received: %llu, current term %llu", [.u64, .u64]⟩,
  ⟨"raft_server_resp_handlers.cxx", 266, 100, "Prevote passed for term %llu", [.u64]⟩,
  ⟨"raft_server_resp_handlers.cxx", 271, 100, "Prevote failed for term %llu", [.u64]⟩,
  ⟨"raft_server_resp_handlers.cxx", 287, 200, "Receive an extended %s message from peer %d with Result=%d, Term=%llu, NextIndex=%llu", [.name, .i32, .i32, .u64, .u64]⟩,
  ⟨"raft_server_resp_handlers.cxx", 370, 100, "continue to send snapshot to new server at offset %llu", [.u64]⟩,
  ⟨"raft_server_resp_handlers.cxx", 380, 200, "received an unexpected response message type %s, for safety, stepping down", [.name]⟩,
  ⟨"raft_server_resp_handlers.cxx", 390, 200, "receive an rpc error response from peer server, %s", [.str]⟩,
  ⟨"raft_server_resp_handlers.cxx", 416, 200, "rpc failed again for the removing server (%d), will remove this server directly", [.i32]⟩,
  ⟨"raft_server_resp_handlers.cxx", 436, 100, "server %d is removed from cluster", [.i32]⟩,
  ⟨"raft_server_resp_handlers.cxx", 440, 100, "peer %d cannot be found, no action for removing", [.i32]⟩,
  ⟨"raft_server_resp_handlers.cxx", 449, 200, "rpc failed again for the new coming server (%d), will stop retry for this server", [.i32]⟩]

end Cs.Text
