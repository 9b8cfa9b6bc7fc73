{"id": "C01", "title": "Buffer header encodes size and position for every size", "statement": "For every size n below 2^31, buffer::alloc(n) yields a buffer whose size() is n and pos() is 0, on both sides of the 0x8000 small/big switch; for n >= 2^31 it throws. After pos(p) the position is min(p, n) and size() is still n, for every p.", "quantifier": "all sizes n, all requested positions p", "why_tests_cant": "there are 2^31 sizes and the size and position share a 32-bit header word whose top bit is the format tag; a test samples a few sizes", "anchors": ["src/buffer.cxx: buffer::alloc, buffer::size, buffer::pos, macros __size_of_block, __pos_of_block, __init_*_block, __mv_fw_block, __set_block_pos"]}
{"id": "C02", "title": "Typed buffer writes read back exactly", "statement": "Any sequence of typed writes (byte, int32, ulong, NUL-free non-empty string, nested buffer) that fits in the free space of a buffer succeeds, and after rewinding to where the first was written, the same sequence of typed reads returns exactly the written values.", "quantifier": "all buffers, all positions, all finite sequences of typed values that fit", "why_tests_cant": "unbounded sequences, value ranges of 2^64, and every byte offset", "anchors": ["src/buffer.cxx: buffer::put overloads, buffer::get overloads, get_int, get_ulong, get_byte, get_str"]}
{"id": "C03", "title": "Checked buffer operations never leave the buffer", "statement": "Every buffer operation other than the bulk get(bufptr&) never reads or writes outside the allocated block and never leaves pos() above size(); when it throws, contents and position are unchanged; when it writes, bytes before the old position and after the new position are unchanged.", "quantifier": "all buffers whose pos is within size, all operations, all argument values, any sequence of operations", "why_tests_cant": "the bad case is a single boundary value for each operation and each buffer size", "anchors": ["src/buffer.cxx: buffer::put, buffer::get_int, buffer::get_ulong, buffer::get_byte, buffer::get_str, buffer::pos"]}
{"id": "C04", "title": "Bulk read is bounds checked", "statement": "Reading k bytes through get(bufptr&) from a buffer with fewer than k bytes left is refused and does not touch memory outside the source buffer; with at least k bytes left it returns exactly the next k bytes.", "quantifier": "all source buffers and all destination sizes", "why_tests_cant": "a test that violates it has undefined behaviour and may well pass", "anchors": ["src/buffer.cxx: buffer::get(bufptr&)"]}
{"id": "C05", "title": "Server configuration survives serialization", "statement": "Deserializing the serialized form of a server configuration gives back the same id and endpoint, for every 32-bit id and every non-empty NUL-free endpoint; it also leaves the reader positioned exactly after the record so records can be concatenated.", "quantifier": "all int32 ids, all endpoint strings without NUL, anything following in the buffer", "why_tests_cant": "infinitely many strings, including lengths that switch the buffer format", "anchors": ["src/srv_config.cxx: srv_config::serialize, srv_config::deserialize"]}
{"id": "C06", "title": "Cluster configuration survives serialization", "statement": "Deserializing a serialized cluster configuration gives back the same log index, previous log index and list of servers, for every number of servers.", "quantifier": "all cluster configurations with valid endpoints", "why_tests_cant": "unbounded number of servers and string lengths", "anchors": ["src/cluster_config.cxx: cluster_config::serialize, cluster_config::deserialize"]}
{"id": "C07", "title": "Snapshot descriptor survives serialization", "statement": "Deserializing a serialized snapshot descriptor gives back the same last index, last term, size and configuration.", "quantifier": "all snapshot descriptors with valid configurations", "why_tests_cant": "unbounded configurations and 2^64 values per field", "anchors": ["src/snapshot.cxx: snapshot::serialize, snapshot::deserialize"]}
{"id": "C08", "title": "Snapshot transfer request survives serialization", "statement": "Deserializing a serialized snapshot transfer request gives back the same descriptor, offset, data bytes and done flag, for every data block including the empty one.", "quantifier": "all snapshot transfer requests", "why_tests_cant": "unbounded data blocks and boundary at empty data", "anchors": ["src/snapshot_sync_req.cxx: snapshot_sync_req::serialize, snapshot_sync_req::deserialize"]}
{"id": "C09", "title": "Log entry survives serialization", "statement": "Deserializing a serialized log entry gives back the same term, value type and payload, for every payload.", "quantifier": "all log entries", "why_tests_cant": "unbounded payloads", "anchors": ["include/log_entry.hxx: log_entry::serialize, log_entry::deserialize"]}
{"id": "C10", "title": "RPC request arrives as sent", "statement": "For every request whose entries total at most 16 MiB, the bytes the client side puts on the wire are parsed by the session side into a request with the same type, source, destination, term, log term, log index, commit index and the same list of entries.", "quantifier": "all requests, any number of entries and payload sizes within the limit", "why_tests_cant": "unbounded lists of entries; field layout errors only show at particular values", "anchors": ["src/asio_service.cxx: asio_rpc_client::req_to_buf, rpc_session::read_log_data, rpc_session::read_complete"]}
{"id": "C11", "title": "RPC response arrives as sent", "statement": "For every response, the bytes put on the wire by the session side are parsed by the client side into a response with the same type, source, destination, term, next index and accepted flag.", "quantifier": "all responses", "why_tests_cant": "2^64 values per field, sign handling of 32-bit ids", "anchors": ["src/asio_service.cxx: rpc_session::read_complete, asio_rpc_client::response_read"]}
{"id": "C12", "title": "A malformed RPC frame cannot corrupt the receiver", "statement": "Whatever bytes a peer sends, the receiver either rejects the frame (closing the connection) or produces a request made only of bytes from that frame; it never reads outside the received frame. Frames announcing negative or more than 16 MiB of log data are always rejected before reading it.", "quantifier": "all byte strings as header and as log data", "why_tests_cant": "adversarial inputs; the violation is undefined behaviour that a test may not notice", "anchors": ["src/asio_service.cxx: rpc_session::start, rpc_session::read_log_data, rpc_session::read_complete"]}
{"id": "C13", "title": "Consecutive RPC frames do not run into each other", "statement": "When several requests are written one after the other on a connection, the receiver consumes exactly each frame, so it parses the same sequence of requests.", "quantifier": "all finite sequences of requests within the size limit", "why_tests_cant": "unbounded sequences; off-by-one in framing desynchronizes only later frames", "anchors": ["src/asio_service.cxx: rpc_session::start, rpc_session::read_log_data, asio_rpc_client::req_to_buf"]}
{"id": "C14", "title": "The file log store behaves as a log", "statement": "Starting from an empty store and for every sequence of append, write_at, compact and pack/apply_pack calls within their documented ranges, next_slot, start_index, entry_at, term_at and last_entry answer as an ideal in-memory log would.", "quantifier": "all finite sequences of store operations, all entries", "why_tests_cant": "unbounded histories; the index file, data file and cache must agree after each of them", "anchors": ["src/fs_log_store.cxx: fs_log_store::append, write_at, entry_at, term_at, last_entry, next_slot, start_index, compact, apply_pack, log_store_buffer"]}
{"id": "C15", "title": "Closing and reopening the store loses nothing", "statement": "After any sequence of completed operations, closing the store and opening it again from its three files gives a store with the same start index, next slot and entries.", "quantifier": "all operation histories, all cache sizes", "why_tests_cant": "the on-disk state depends on the whole history, including overwrites and compactions", "anchors": ["src/fs_log_store.cxx: fs_log_store::fs_log_store, fill_buffer, close, append, write_at, compact, apply_pack"]}
{"id": "C16", "title": "Range reads return exactly the range", "statement": "log_entries(s, e) returns exactly the entries with indexes s, s+1, ..., min(e, next_slot)-1, in order, for every cache size and cache content.", "quantifier": "all stores, all ranges", "why_tests_cant": "the answer is stitched from the files and from the cache; the failing ranges depend on where the cache starts", "anchors": ["src/fs_log_store.cxx: fs_log_store::log_entries, log_store_buffer::fill"]}
{"id": "C17", "title": "write_at truncates and replaces", "statement": "After write_at(i, e) with start <= i <= next_slot, next_slot is i+1, entry_at(i) is e, and every entry before i is unchanged; nothing written later can bring back an old entry.", "quantifier": "all stores, all indexes in range, all entries", "why_tests_cant": "old bytes remain in the files; whether they resurface depends on lengths and on later operations", "anchors": ["src/fs_log_store.cxx: fs_log_store::write_at, fs_log_store::append, log_store_buffer::trim"]}
{"id": "C18", "title": "Compaction keeps the rest of the log", "statement": "compact(i) with start <= i removes exactly the entries up to i: start_index becomes i+1, and every remaining entry keeps its index, term and content; next_slot never decreases.", "quantifier": "all stores and all indexes", "why_tests_cant": "compaction rewrites both files and relocates every stored position", "anchors": ["src/fs_log_store.cxx: fs_log_store::compact"]}
{"id": "C19", "title": "Packed entries arrive unchanged", "statement": "Entries taken with pack(i, n) from one store and applied with apply_pack at the same index in another store that ends there are afterwards read from the second store exactly as they were in the first, and the second store's earlier entries are unchanged.", "quantifier": "all pairs of stores, all ranges inside the source", "why_tests_cant": "positions inside the pack must be relocated by a difference that depends on both stores", "anchors": ["src/fs_log_store.cxx: fs_log_store::pack, fs_log_store::apply_pack"]}
{"id": "C20", "title": "The entry cache never serves stale data", "statement": "For every cache size, an entry read through the cache equals the one stored in the files.", "quantifier": "all cache sizes, all operation sequences", "why_tests_cant": "needs an overwrite below the cached window, which small tests with a big cache never do", "anchors": ["src/fs_log_store.cxx: log_store_buffer::trim, log_store_buffer::append, log_store_buffer::operator[]"]}
{"id": "C21", "title": "A crash while appending leaves an openable store", "statement": "If the process dies at any moment during append, reopening the files succeeds and shows either the log before or the log after the append.", "quantifier": "all stores, all entries, every prefix of the file writes", "why_tests_cant": "crash points between two file flushes cannot be hit reliably by a test", "anchors": ["src/fs_log_store.cxx: fs_log_store::append, fill_buffer, fs_log_store::fs_log_store"]}
{"id": "C22", "title": "A crash while compacting leaves an openable store", "statement": "If the process dies at any moment during compact, reopening the files shows either the log before or the log after the compaction.", "quantifier": "all stores, every prefix of the file operations", "why_tests_cant": "crash points inside a file-level operation sequence", "anchors": ["src/fs_log_store.cxx: fs_log_store::compact"]}
{"id": "C23", "title": "A failed read does not disable the store", "statement": "Asking for an entry or term outside [start_index, next_slot) never affects the answers to later valid requests.", "quantifier": "all stores, all out-of-range indexes, all later operations", "why_tests_cant": "stream error flags are sticky; the damage shows only in later, unrelated calls", "anchors": ["src/fs_log_store.cxx: fs_log_store::term_at, fs_log_store::entry_at"]}
{"id": "C24", "title": "Term never goes backwards", "statement": "A server's current term, both in memory and as last saved, never decreases, whatever messages, timeouts, client requests and crashes occur.", "quantifier": "all server states, all inputs, all histories including crashes at any point", "why_tests_cant": "unbounded histories; one path that lowers the term suffices to break safety", "anchors": ["src/raft_server.cxx: update_term, become_follower, handle_election_timeout", "src/raft_server_req_handlers.cxx: handle_join_cluster_req, handle_vote_req", "include/srv_state.hxx"]}
{"id": "C25", "title": "At most one vote per term", "statement": "In one term a server grants its vote to at most one candidate, whatever the order and duplication of requests and across crashes and restarts.", "quantifier": "all histories of one server including crash/restart", "why_tests_cant": "needs all interleavings of duplicated requests with crashes", "anchors": ["src/raft_server_req_handlers.cxx: handle_vote_req", "src/raft_server.cxx: request_vote, update_term"]}
{"id": "C26", "title": "A vote is saved before it is announced", "statement": "When a server answers a vote request positively or asks others for votes, its saved state already holds that term and that vote; a crash at any point cannot forget a vote that was announced.", "quantifier": "all server states and requests, every crash point", "why_tests_cant": "crash points between saving and sending", "anchors": ["src/raft_server_req_handlers.cxx: handle_vote_req", "src/raft_server.cxx: request_vote"]}
{"id": "C27", "title": "Votes go only to candidates with an up-to-date log", "statement": "A vote is granted only if the candidate's last log term is larger than the voter's, or equal with a last index at least as large; never for a term below the voter's.", "quantifier": "all server states and vote requests", "why_tests_cant": "decision over four unbounded integers and the log state", "anchors": ["src/raft_server_req_handlers.cxx: handle_vote_req"]}
{"id": "C28", "title": "Pre-vote is side-effect free", "statement": "Handling a pre-vote request or a pre-vote response that does not complete a majority never changes any server's term, vote, role, log, commit index or saved state.", "quantifier": "all server states, all pre-vote messages", "why_tests_cant": "must hold for every reachable state", "anchors": ["src/raft_server_req_handlers.cxx: handle_prevote_req", "src/raft_server_resp_handlers.cxx: handle_prevote_resp"]}
{"id": "C29", "title": "AppendEntries makes the log agree with the message", "statement": "If a follower accepts an append request with previous index p and entries e1..en, its log afterwards holds e1..en (by term) at p+1..p+n, the entries up to p are unchanged, and the entry at p has the term named in the request; if it refuses, its log is unchanged.", "quantifier": "all logs, all append requests", "why_tests_cant": "the merge handles overlaps, conflicts and extension with unbounded lengths", "anchors": ["src/raft_server_req_handlers.cxx: handle_append_entries"]}
{"id": "C30", "title": "Duplicate or delayed AppendEntries lose nothing", "statement": "Processing an append request all of whose entries the log already has leaves the log unchanged; in particular redelivery of an old message never truncates entries appended after it.", "quantifier": "all logs, all append requests, any number of redeliveries", "why_tests_cant": "reordering and duplication of messages in arbitrary histories", "anchors": ["src/raft_server_req_handlers.cxx: handle_append_entries"]}
{"id": "C31", "title": "Requests from an old term have no effect", "statement": "An append, vote or snapshot request whose term is below the server's is refused and changes neither term, vote, role, log, commit index nor saved state.", "quantifier": "all server states, all stale requests", "why_tests_cant": "every request kind in every state", "anchors": ["src/raft_server_req_handlers.cxx: handle_append_entries, handle_vote_req, handle_install_snapshot_req"]}
{"id": "C32", "title": "Only the leader accepts client commands", "statement": "A client request is accepted only by a server in the leader role; the entries are appended in order at the end of the leader's log, stamped with its current term, and the answer names the next free index; when refused, the log is unchanged.", "quantifier": "all server states, all client requests", "why_tests_cant": "ranges over every reachable server state", "anchors": ["src/raft_server_req_handlers.cxx: handle_cli_req"]}
{"id": "C33", "title": "Commit index never moves backwards", "statement": "The commit index and the applied index of a running server never decrease.", "quantifier": "all inputs, all histories without restart", "why_tests_cant": "unbounded histories", "anchors": ["src/raft_server.cxx: commit, commit_in_bg", "src/raft_server_req_handlers.cxx: handle_append_entries, handle_install_snapshot_req, handle_join_cluster_req"]}
{"id": "C34", "title": "Commands are applied in log order, once, without gaps", "statement": "The state machine receives commit calls for strictly consecutive indexes (between snapshot installations), each with the entry the log holds at that index and never beyond the commit index.", "quantifier": "all histories, all schedules of the commit thread", "why_tests_cant": "thread interleavings and unbounded histories", "anchors": ["src/raft_server.cxx: commit_in_bg, commit", "src/raft_server_resp_handlers.cxx"]}
{"id": "C35", "title": "The leader's commit index is backed by a majority", "statement": "When a leader advances its commit index to n on an append response, a strict majority of the cluster (itself included) has reported holding index n.", "quantifier": "all cluster sizes, all peer progress values", "why_tests_cant": "any number of peers; the median position depends on parity", "anchors": ["src/raft_server_resp_handlers.cxx: handle_append_entries_resp"]}
{"id": "C36", "title": "A leader commits by counting only entries of its own term", "statement": "A leader never advances its commit index to an entry of an earlier term merely because a majority stores it.", "quantifier": "all leader states", "why_tests_cant": "violations need several elections", "anchors": ["src/raft_server_resp_handlers.cxx: handle_append_entries_resp"]}
{"id": "C37", "title": "Becoming leader needs a majority of votes of the current term", "statement": "A server enters the leader role only when more than half of the configured servers, counting itself and each at most once, have granted it their vote in its current term.", "quantifier": "all histories of messages of one server", "why_tests_cant": "needs all orders and duplications of responses", "anchors": ["src/raft_server_resp_handlers.cxx: handle_voting_resp", "src/raft_server.cxx: become_leader, request_vote"]}
{"id": "C38", "title": "One membership change at a time", "statement": "A request to add or remove a server is refused while another change is uncommitted, or when the server asked is not the leader, or the target is itself/already member/not a member; a refused request changes nothing.", "quantifier": "all server states, all membership requests", "why_tests_cant": "states between appending and committing a configuration", "anchors": ["src/raft_server_req_handlers.cxx: handle_add_srv_req, handle_rm_srv_req", "src/raft_server_resp_handlers.cxx: handle_ext_resp", "src/raft_server.cxx: sync_log_to_new_srv, rm_srv_from_cluster"]}
{"id": "C39", "title": "Applying a configuration yields exactly its peers", "statement": "After a configuration is applied, a server that is a member has as peers exactly the other members, keeping the progress of peers that stay; a server that is not a member shuts down.", "quantifier": "all current and new configurations", "why_tests_cant": "any number of servers added and removed at once", "anchors": ["src/raft_server.cxx: reconfigure"]}
{"id": "C40", "title": "Election safety", "statement": "At most one server becomes leader in a given term, in every execution with message loss, duplication, delay, reordering and crashes.", "quantifier": "all cluster sizes, all executions with fixed membership", "why_tests_cant": "infinitely many schedules", "anchors": ["src/raft_server.cxx", "src/raft_server_req_handlers.cxx: handle_vote_req", "src/raft_server_resp_handlers.cxx: handle_voting_resp"]}
{"id": "C41", "title": "Log matching", "statement": "If two servers' logs have an entry with the same index and term then the logs are identical up to that index.", "quantifier": "all executions with fixed membership", "why_tests_cant": "infinitely many schedules", "anchors": ["src/raft_server_req_handlers.cxx: handle_append_entries, handle_cli_req", "src/raft_server.cxx: create_append_entries_req"]}
{"id": "C42", "title": "Leaders only append", "statement": "During its term a leader never overwrites or removes an entry of its own log.", "quantifier": "all executions", "why_tests_cant": "needs that no append request of the same term can reach the leader in any schedule", "anchors": ["src/raft_server_req_handlers.cxx: handle_append_entries, handle_cli_req"]}
{"id": "C43", "title": "Entries stored by a majority in their own term survive", "statement": "If a leader created an entry in its term and a majority confirmed storing it in that term, every leader of every later term has that entry at that index.", "quantifier": "all executions with fixed membership", "why_tests_cant": "argument over all pairs of terms and all schedules", "anchors": ["src/raft_server_req_handlers.cxx: handle_vote_req, handle_append_entries", "src/raft_server_resp_handlers.cxx"]}
{"id": "C44", "title": "State machine safety", "statement": "No two servers ever apply different entries at the same log index.", "quantifier": "all executions", "why_tests_cant": "the central guarantee; counterexamples need several elections in a specific order", "anchors": ["src/raft_server_resp_handlers.cxx: handle_append_entries_resp", "src/raft_server_req_handlers.cxx: handle_append_entries", "src/raft_server.cxx: commit_in_bg"]}
{"id": "C45", "title": "No server shuts itself down in a healthy protocol run", "statement": "In executions with fixed membership, the internal consistency checks that terminate the process (such as receiving an append request of the own term while leader) never trigger.", "quantifier": "all executions with fixed membership and no log compaction", "why_tests_cant": "must consider every reachable state", "anchors": ["src/raft_server_req_handlers.cxx: handle_append_entries", "src/raft_server.cxx: create_append_entries_req, term_for_log"]}
{"id": "C46", "title": "is_leader is withdrawn when the majority is silent", "statement": "When a leader has not heard from a majority for longer than twice the upper election timeout, is_leader() returns false.", "quantifier": "all response-time histories", "why_tests_cant": "depends on the call history of is_leader through hidden static state", "anchors": ["src/raft_server.cxx: is_leader"]}
{"id": "C47", "title": "replicate_log reports acceptance", "statement": "replicate_log returns true exactly when the entry was appended by this server as leader.", "quantifier": "all server states", "why_tests_cant": "ranges over all states; the return value is constant in the code", "anchors": ["include/raft_server.hxx: replicate_log", "src/raft_server.cxx: replicate_log"]}
{"id": "C48", "title": "A transferred snapshot is reassembled exactly", "statement": "For every snapshot size and block size, the sequence of blocks sent by the leader covers the snapshot from offset 0 to its end without gap or overlap, the last one and only the last one is marked done, and the follower's state machine receives exactly the snapshot bytes.", "quantifier": "all snapshot contents, all positive block sizes", "why_tests_cant": "any size and any block size, including exact multiples", "anchors": ["src/raft_server.cxx: create_sync_snapshot_req", "src/raft_server_req_handlers.cxx: handle_snapshot_sync_req", "src/raft_server_resp_handlers.cxx: handle_install_snapshot_resp"]}
{"id": "C49", "title": "Compaction after a snapshot keeps reserved entries", "statement": "When a snapshot is taken, the log is compacted only up to a point that is at least the configured number of reserved entries below the snapshot index, never beyond the snapshot, and never when it would underflow.", "quantifier": "all parameters, all indexes", "why_tests_cant": "unsigned arithmetic with configuration values", "anchors": ["src/raft_server.cxx: snapshot_and_compact, on_snapshot_completed"]}
{"id": "C50", "title": "An async result is delivered exactly once", "statement": "A handler registered with when_ready is called exactly once with the result, whatever the interleaving with set_result.", "quantifier": "all interleavings of one registration and one completion", "why_tests_cant": "thread schedules", "anchors": ["include/async.hxx: async_result::when_ready, async_result::set_result"]}
{"id": "C51", "title": "get() never hangs after the result is set", "statement": "Every thread blocked in get() returns once set_result has been called, and returns the value (or throws the error) that was set.", "quantifier": "all interleavings of any number of getters with one setter", "why_tests_cant": "thread schedules; lost wake-ups", "anchors": ["include/async.hxx: async_result::get, async_result::set_result"]}
{"id": "C52", "title": "Heartbeat back-off stays within bounds", "statement": "The heartbeat interval of a peer is always between the configured interval and the configured maximum, and returns to the configured interval after one success.", "quantifier": "all parameters, any sequence of failures and successes", "why_tests_cant": "unbounded sequences with arbitrary parameters", "anchors": ["include/peer.hxx: slow_down_hb, resume_hb_speed", "include/raft_params.hxx: max_hb_interval"]}
{"id": "C53", "title": "One outstanding request per peer", "statement": "At most one append or snapshot request to a given peer is outstanding at any time.", "quantifier": "all schedules", "why_tests_cant": "concurrent callers and role changes", "anchors": ["include/peer.hxx: make_busy, set_free", "src/raft_server.cxx: request_append_entries, become_leader", "src/peer.cxx"]}
{"id": "C54", "title": "A committed entry wakes the commit thread", "statement": "Whenever the commit index is raised, the background commit thread eventually applies the entry without further events.", "quantifier": "all interleavings of commit() with the background thread", "why_tests_cant": "thread schedules; lost wake-ups", "anchors": ["src/raft_server.cxx: commit, commit_in_bg"]}
{"id": "C55", "title": "A cancelled timer does not fire", "statement": "Once a delayed task has been cancelled it never executes until it is scheduled again; after a restart of the election timer an expiry belonging to the earlier schedule does not start an election.", "quantifier": "all interleavings of cancel, schedule and expiry", "why_tests_cant": "races between the timer queue and the handlers", "anchors": ["include/delayed_task.hxx", "src/asio_service.cxx: schedule, cancel_impl, _timer_handler_"]}
{"id": "C56", "title": "A leader can bring up a member with the snapshot it has made", "statement": "When a leader has made a snapshot and compacted its log, and a member needs entries that are gone, the leader sends that snapshot to the member; in particular it does not shut down.", "quantifier": "all leaders and members, all histories", "why_tests_cant": "needs a member that falls behind a compaction while the leader keeps running", "anchors": ["src/raft_server.cxx: create_sync_snapshot_req, on_snapshot_completed, snapshot_and_compact", "include/snapshot.hxx"]}
{"id": "C57", "title": "Snapshots go on", "statement": "After the state machine has reported that a snapshot is finished or has failed, the server is ready to make the next one.", "quantifier": "all states, all parameters", "why_tests_cant": "depends on where the log starts, for instance after a snapshot has been received", "anchors": ["src/raft_server.cxx: on_snapshot_completed", "src/fs_log_store.cxx: compact"]}
{"id": "C58", "title": "replicate_log appends only as leader", "statement": "replicate_log appends an entry, and sends append requests, only while the server is leader, and the entry carries the term in which it is leader.", "quantifier": "all interleavings with the threads that handle messages and timers", "why_tests_cant": "thread schedules", "anchors": ["include/raft_server.hxx: replicate_log", "src/raft_server.cxx: replicate_log"]}
{"id": "C59", "title": "The destructor of a server returns", "statement": "Destroying a server ends its commit thread and returns, whatever the server is doing at that time.", "quantifier": "all interleavings of the destructor with the commit thread", "why_tests_cant": "thread schedules; lost wake-ups and deadlocks", "anchors": ["src/raft_server.cxx: ~raft_server, commit_in_bg", "include/raft_server.hxx"]}
{"id": "C60", "title": "A leader that has compacted its log can bring up an empty member", "statement": "A member whose log is empty is brought up to date by a leader whose log no longer starts at the first entry.", "quantifier": "all leaders and members", "why_tests_cant": "needs a member that loses its disk, or has never got an entry, and a compaction", "anchors": ["src/raft_server.cxx: create_append_entries_req, request_append_entries, handle_hb_timeout"]}
{"id": "C61", "title": "A snapshot transfer ends although answers are lost", "statement": "If the answer to the last block of a snapshot is lost, the member having installed the snapshot, leader and member still finish the transfer.", "quantifier": "any number of exchanged messages", "why_tests_cant": "an endless exchange is not visible in a finite run", "anchors": ["src/raft_server_req_handlers.cxx: handle_snapshot_sync_req", "src/raft_server_resp_handlers.cxx: handle_install_snapshot_resp"]}
{"id": "C62", "title": "An exception in a handler costs no worker thread", "statement": "If handling a timer or a response ends by an exception, the service still has as many threads that handle events as before.", "quantifier": "any sequence of handlers, any number of threads", "why_tests_cant": "needs exceptions on every thread", "anchors": ["src/asio_service.cxx: worker_entry, the constructor"]}
{"id": "C63", "title": "One snapshot at a time", "statement": "The state machine is not asked for another snapshot while it is making one.", "quantifier": "all histories of a running server", "why_tests_cant": "unbounded histories", "anchors": ["src/raft_server.cxx: snapshot_and_compact, on_snapshot_completed"]}
{"id": "C64", "title": "Stopping the service returns", "statement": "A call of stop() on the asio service, which flushes the loggers, returns.", "quantifier": "all interleavings of stop() with any number of worker threads", "why_tests_cant": "thread schedules; lost wake-ups", "anchors": ["src/asio_service.cxx: stop, flush_all_loggers, worker_entry"]}
{"id": "C65", "title": "A leader stays leader for its term", "statement": "A server that leads a term stays leader, whatever it handles, until it moves to a later term.", "quantifier": "all states, all sequences of inputs", "why_tests_cant": "unbounded histories", "anchors": ["src/raft_server.cxx: become_follower, update_term, process_req"]}
{"id": "C66", "title": "Every request sent through the client has one outcome", "statement": "The handler given to the RPC client together with a request is called exactly once, with the answer or with an error.", "quantifier": "any number of requests, all interleavings of their completions, any behaviour of the network", "why_tests_cant": "needs unlucky interleavings of completions and lost connections", "anchors": ["src/asio_service.cxx: asio_rpc_client::send, sent, response_read"]}
{"id": "C67", "title": "An answer reaches the request it answers", "statement": "A handler that is called with an answer is called with the answer to the request it was given for.", "quantifier": "any number of requests, all interleavings of their completions", "why_tests_cant": "two completions have to be handled in the unusual order", "anchors": ["src/asio_service.cxx: asio_rpc_client::send, sent, response_read"]}
{"id": "C68", "title": "The client recovers", "statement": "Once the server can be reached again, requests sent through the RPC client are answered.", "quantifier": "all histories of lost connections and failed connects", "why_tests_cant": "needs failures at every stage of a connection", "anchors": ["src/asio_service.cxx: asio_rpc_client::connected, sent, response_read"]}
{"id": "C69", "title": "Every legal address gives a client", "statement": "create_client makes a client for tcp://host:port, connecting to that host and port, for every host name allowed by RFC 1123 and every port; it makes none for anything that is not such an address.", "quantifier": "all strings", "why_tests_cant": "infinitely many strings", "anchors": ["src/asio_service.cxx: create_client"]}
{"id": "C70", "title": "append_entries tells the truth", "statement": "If the result of append_entries becomes true, the server that answered is leader and has appended exactly the given commands, in order, at the end of its log; if it becomes false, the log of the server that answered is unchanged.", "quantifier": "all states of the calling and the answering server, all lists of commands", "why_tests_cant": "all combinations of roles, logs and commands", "anchors": ["src/raft_server.cxx: append_entries, send_msg_to_leader", "src/raft_server_req_handlers.cxx: handle_cli_req"]}
{"id": "C71", "title": "Calls reach the leader at its configured address", "statement": "append_entries, add_srv and remove_srv on a server that takes another member for the leader send the request to the address this member has in the current configuration.", "quantifier": "all histories of inputs and calls of one server", "why_tests_cant": "needs a member that changes its address between two calls", "anchors": ["src/raft_server.cxx: send_msg_to_leader"]}
{"id": "C72", "title": "Requests to a member go to its configured address", "statement": "Whatever a server sends to a member of its current configuration goes to the address this member has in that configuration.", "quantifier": "all histories of one server", "why_tests_cant": "needs a member that moves while another server is behind", "anchors": ["src/raft_server.cxx: reconfigure, handle_snapshot_sync_req", "include/peer.hxx: peer"]}
{"id": "C73", "title": "An address that is not legal does no harm", "statement": "A server does not end in undefined behaviour because somebody gives it the address of a member that create_client does not accept.", "quantifier": "all histories of one server, all addresses", "why_tests_cant": "crash of the process under test", "anchors": ["src/raft_server_req_handlers.cxx: handle_add_srv_req", "src/raft_server.cxx: invite_srv_to_join_cluster", "src/peer.cxx: send_req"]}
{"id": "C74", "title": "A server that is added gets the log of the leader", "statement": "If the leader accepts a request to add a server and messages arrive, the exchange ends: the leader appends a configuration with the new server, and the new server has committed a prefix of the leader's committed entries that lacks less than log_sync_stop_gap of them, and nothing else.", "quantifier": "all leaders, logs and parameters, all interleavings with the commit thread of the new server", "why_tests_cant": "logs of any length and packs of any size", "anchors": ["src/raft_server_req_handlers.cxx: handle_add_srv_req, handle_join_cluster_req, sync_log_to_new_srv, handle_log_sync_req", "src/raft_server_resp_handlers.cxx: handle_ext_resp"]}
{"id": "C75", "title": "A server that cannot be reached does not block membership changes", "statement": "If the leader accepts a request to remove a server that cannot be reached, it appends a configuration without the server after a bounded number of failures; if it accepts a request to add one that cannot be reached, it gives up after a bounded number of failures and accepts further requests.", "quantifier": "all leaders, all parameters", "why_tests_cant": "all parameters; bounds on retries", "anchors": ["src/raft_server_resp_handlers.cxx: handle_ext_resp_err", "src/raft_server_req_handlers.cxx: handle_rm_srv_req, handle_add_srv_req"]}
{"id": "C76", "title": "A server that has agreed to leave ends", "statement": "A server that has accepted a request to leave, and gets no append, vote or snapshot request and no further request to leave, sets its timer again at the first election timeout and ends its process at the second, with itself taken out of the configuration on disk.", "quantifier": "all servers, all other inputs in between", "why_tests_cant": "needs all inputs that can come between the timeouts", "anchors": ["src/raft_server_req_handlers.cxx: handle_leave_cluster_req, process_req", "src/raft_server.cxx: handle_election_timeout"]}
{"id": "C77", "title": "A member that has not been removed stays", "statement": "A server does not take itself out of its configuration unless a configuration without it has been committed.", "quantifier": "all histories of one server, including crashes and restarts", "why_tests_cant": "needs a leader that crashes at the right moment", "anchors": ["src/raft_server.cxx: handle_election_timeout", "src/raft_server_req_handlers.cxx: handle_leave_cluster_req"]}
{"id": "C78", "title": "add_srv and remove_srv tell whether the change has begun", "statement": "add_srv gives true exactly if the leader has invited the named server to join, and remove_srv exactly if the leader has asked the named member to leave; this holds if the call is made on the leader itself, and also if another server passes it on, in which case nothing changes on that server. If the result is false no change has begun.", "quantifier": "all states of the servers, all server ids and addresses", "why_tests_cant": "needs every state of leader and caller, including pending changes", "anchors": ["src/raft_server.cxx: add_srv, remove_srv, send_msg_to_leader", "src/raft_server_req_handlers.cxx: handle_add_srv_req, handle_rm_srv_req"]}
{"id": "C79", "title": "A member that is behind is brought up to date", "statement": "If a member lacks entries of the leader or has other entries in their place, then after a heartbeat, when messages between the two arrive, after finitely many messages the member's log begins with everything the leader's log contained at the time of the heartbeat, while the leader may go on accepting new entries.", "quantifier": "all pairs of logs that can occur, all batch sizes of at least one, all new entries in between", "why_tests_cant": "unbounded number of rounds, and all ways two logs can differ", "anchors": ["src/raft_server.cxx: create_append_entries_req, request_append_entries, handle_hb_timeout", "src/raft_server_req_handlers.cxx: handle_append_entries", "src/raft_server_resp_handlers.cxx: handle_append_entries_resp"]}
{"id": "C80", "title": "A command is announced before it is committed or rolled back", "statement": "The state machine gets commit(i, c) or rollback(i, c) only after pre_commit(i, c), and between the two there is no pre_commit or rollback for index i.", "quantifier": "all histories of one server", "why_tests_cant": "needs every interleaving of client commands, overwrites by new leaders, snapshots and crashes", "anchors": ["include/state_machine.hxx: pre_commit, rollback, commit", "src/raft_server_req_handlers.cxx: handle_append_entries, handle_cli_req, handle_log_sync_req", "src/raft_server.cxx: replicate_log, commit_in_bg"]}
{"id": "C81", "title": "An announced command is committed or rolled back", "statement": "When pre_commit is called for an index, every command announced earlier for the same index has been committed or rolled back: a command that a new leader replaces is not forgotten.", "quantifier": "all histories of one server", "why_tests_cant": "needs followers with any number of uncommitted commands and leaders with any log", "anchors": ["include/state_machine.hxx: pre_commit, rollback", "src/raft_server_req_handlers.cxx: handle_append_entries"]}
{"id": "C82", "title": "Membership changes wait for the one before", "statement": "While the log of a server has a configuration that the server has not applied, requests to add or remove a server are refused and have no effect; restarts do not change this.", "quantifier": "all histories of one server, including crashes and restarts", "why_tests_cant": "needs every way a configuration can get into the log, and every crash point", "anchors": ["src/raft_server.cxx: constructor, become_leader, commit_in_bg", "src/raft_server_req_handlers.cxx: handle_append_entries, handle_add_srv_req, handle_rm_srv_req, rm_srv_from_cluster, sync_log_to_new_srv", "src/raft_server_resp_handlers.cxx: handle_ext_resp_err"]}
{"id": "C83", "title": "Only a leader creates log entries", "statement": "Whatever happens to a server, an entry that it did not have in its log before and that was not sent to it by a leader is one it has made as leader of the term the entry carries.", "quantifier": "all states of a server, all messages, answers, failures, timeouts and calls", "why_tests_cant": "needs every message to arrive in every role, also long after it was sent", "anchors": ["src/raft_server_req_handlers.cxx: rm_srv_from_cluster, handle_cli_req", "src/raft_server_resp_handlers.cxx: handle_ext_resp, handle_ext_resp_err, sync_log_to_new_srv", "src/raft_server.cxx: become_leader, replicate_log"]}
{"id": "C84", "title": "When no membership change is pending the next one is accepted", "statement": "If every configuration in the log of the leader has been applied, a request to add a server that is not a member, or to remove another member, is accepted, and the server is asked to join or to leave.", "quantifier": "all histories of a server", "why_tests_cant": "a flag that remains set by mistake shows only in the histories that lead to it: overwritten entries, snapshots, restarts", "anchors": ["src/raft_server.cxx: constructor, commit_in_bg", "src/raft_server_req_handlers.cxx: handle_append_entries, handle_snapshot_sync_req, handle_add_srv_req, handle_rm_srv_req"]}
{"id": "C85", "title": "Commands reach state machines and other members from their first byte", "statement": "Whenever the state machine is called with a command (pre_commit, rollback, commit) it reads the command from its first byte, whatever it did with the buffer in earlier calls, and the bytes that other members receive for an entry are the bytes that were submitted, whatever the state machine is doing with the buffer meanwhile.", "quantifier": "all commands, all state machines that only read, all interleavings of the threads that announce, commit and send an entry", "why_tests_cant": "one buffer object, with one position, is shared by the handlers, the commit thread, the log store's cache and the sending threads; the outcome depends on their interleaving and on whether the entry is still cached", "anchors": ["src/raft_server.cxx: commit_in_bg, snapshot_and_compact", "src/raft_server_req_handlers.cxx: handle_append_entries, handle_cli_req", "src/asio_service.cxx: asio_rpc_client::send", "src/fs_log_store.cxx: entry_at, log_entries, append", "include/log_entry.hxx: get_buf, serialize"]}
{"id": "C86", "title": "The cookie of a command comes back with it", "statement": "An object attached to a command when it is handed to replicate_log (the cookie) is what get_cookie returns for the entry read from the log store of the same server, until the entry is compacted away or overwritten; so the state machine is given it when the command is committed or rolled back.", "quantifier": "For every store a history of operations can lead to, every cache size, and every sequence of operations after the append.", "why_tests_cant": "Whether the object is still there depends on how many entries were appended since, on the cache size and on whether a snapshot was taken in between; a test sees one such history, usually with the default cache and no compaction.", "anchors": ["include/log_entry.hxx log_entry_cookie, set_cookie, get_cookie, serialize, deserialize", "src/raft_server.cxx replicate_log, commit_in_bg", "src/fs_log_store.cxx log_store_buffer, append, write_at, entry_at, apply_pack, compact, fill_buffer"]}
{"id": "C87", "title": "The handlers of the other server get the request that was made", "statement": "A request that a server hands to a connection (terms, indices, commands, configurations, servers, log packs, snapshot blocks) is decoded on the other side, by the session and by the handler that reads its payload, to a request that says the same; answers come back the same. In particular a snapshot block arrives with all bytes that read_snapshot_data has put in its buffer.", "quantifier": "For every request whose numbers fit in their fields and whose payload is at most 16 MiB, with any bytes behind it in the stream; and for every request that a server sends in any history of inputs, crashes and restarts.", "why_tests_cant": "The payload of each kind of entry is made in one file and read in another one, through two layers of encodings whose positions, sizes and type bytes must agree for all numbers, strings and list lengths; a test sends a few requests, and its state machine fills blocks in one particular way.", "anchors": ["src/raft_server.cxx create_append_entries_req, create_sync_snapshot_req, become_leader, add_srv, remove_srv", "src/raft_server_req_handlers.cxx handle_log_sync_req, handle_join_cluster_req, handle_install_snapshot_req, handle_rm_srv_req, handle_add_srv_req", "src/snapshot_sync_req.cxx", "src/asio_service.cxx asio_rpc_client::send, rpc_session", "include/state_machine.hxx read_snapshot_data"]}
{"id": "C88", "title": "What a leader sends to replicate commands is small enough to be received", "statement": "Whatever commands a leader has accepted, each request with which it replicates them is accepted by the session of the other member: its entries take at most the 16 MiB that a session allows. So no accepted command can block replication.", "quantifier": "For every history of a leader, all commands it accepted, all members, and any number of failed attempts.", "why_tests_cant": "The limit of the receiver is on bytes, the limit of the sender on the number of entries; whether they meet depends on the sizes of all commands that happen to wait for a member, and on a member that is behind there can be many.", "anchors": ["src/raft_server.cxx create_append_entries_req, append_entries, replicate_log", "src/asio_service.cxx rpc_session::start, asio_rpc_client::send", "include/raft_params.hxx max_append_size_"]}
{"id": "C89", "title": "A server without a leader keeps trying", "statement": "A running member that is not leader always has its election timer running, and when it expires the server stands for election: it asks every other member for its vote in a new term. So, whatever messages were lost before, servers that hear from no leader stand again and again, and a majority of members that stay up and can talk to each other is not left without a leader for ever.", "quantifier": "For every history of a server (messages, answers, failures, timeouts, crashes, restarts) and, for the cluster, every execution after the point at which the other members are down.", "why_tests_cant": "A timer that is not started again shows only as nothing happening; whether it is depends on which of the answers of a round arrived, and on all rounds before. A test cannot wait for ever.", "anchors": ["src/raft_server.cxx handle_election_timeout, request_prevote, become_candidate, request_vote, restart_election_timer", "src/raft_server_resp_handlers.cxx handle_prevote_resp, handle_ext_resp_err", "src/raft_server_req_handlers.cxx handle_prevote_req"]}
{"id": "C90", "title": "The state machine gets commands and snapshots one after the other", "statement": "The state machine of a server is called for one thing at a time: commit and apply_snapshot do not overlap. Each command is passed to commit with its own index, after all commands before it, only when it is committed, and not if it is part of a snapshot that was applied before. A received snapshot does not end the process.", "quantifier": "For all schedules of the thread that applies entries and the threads that handle messages, all logs and all snapshots.", "why_tests_cant": "The applied index is read and written by two threads without a common lock. Which of the accesses fall between which others depends on the scheduler; a test sees a handful of schedules and the bad ones need a snapshot to arrive within microseconds.", "anchors": ["src/raft_server.cxx commit_in_bg, commit, snapshot_and_compact, on_snapshot_completed", "src/raft_server_req_handlers.cxx handle_install_snapshot_req, handle_snapshot_sync_req", "include/state_machine.hxx"]}
{"id": "C91", "title": "Snapshots do not change what the cluster guarantees", "statement": "In a cluster whose servers take snapshots, cut their logs and send snapshots to each other (any snapshot distance, any number of kept entries), the guarantees of a cluster without snapshots still hold: at most one server is leader of a term; a server that leads a later term has every entry that a majority had confirmed to the leader of an earlier one, or a snapshot that covers it; and no two servers apply different commands at the same index.", "quantifier": "For all clusters with fixed members and any parameters, all executions with lost, repeated, delayed and reordered messages, crashes and restarts, and snapshots finished at any time.", "why_tests_cant": "Whether a vote is granted depends on the last entry of the voter, and after a snapshot there may be none; the loss needs a snapshot, a failure and an election in a particular order, on three servers.", "anchors": ["src/raft_server_req_handlers.cxx handle_vote_req, handle_prevote_req, handle_append_entries, handle_snapshot_sync_req", "src/raft_server.cxx snapshot_and_compact, on_snapshot_completed, become_leader, request_vote", "src/fs_log_store.cxx last_entry, compact"]}
{"id": "C92", "title": "What is logged reaches the log file", "statement": "The file of a logger contains the lines logged at the level of the logger or above, in the order in which they were logged, each once, with none left out before one that is there. Lines logged shortly before the process ends are in the file; at least, when stop of the service returns, all lines that were logged before it was called are in the file.", "quantifier": "For all levels, all sequences of logged lines, and all interleavings of logging threads, the timer, the calls of the flush handler and a call of stop.", "why_tests_cant": "Lines wait in memory for a timer that first expires after one second and then after 1000 hours, so tests that are shorter than a second or call stop see complete files. Whether stop returns before the lines are written depends on which handler wakes it.", "anchors": ["src/asio_service.cxx fs_based_logger, flush_all_loggers, run, stop, create_logger", "include/asio_service.hxx log_level", "src/raft_server.cxx calls of ::exit after l_->err"]}
{"id": "C93", "title": "A listener serves each connection in turn, until it is stopped", "statement": "Requests of one connection are given to the message handler one at a time and in the order in which they were sent, and each is answered before the next is taken. A listener that is not stopped accepts every connection, also after accepts that failed. After stop of the listener no connection is accepted and no request is given to the message handler any more.", "quantifier": "For all numbers of connections, all sequences of requests with good and bad data, all answers and failures, and all interleavings of the handlers, the other sides and a call of stop.", "why_tests_cant": "Tests use a few connections, answer each request before the next is sent, and end the process after stop. What happens to connections that are open when stop is called does not show.", "anchors": ["src/asio_service.cxx rpc_session, asio_rpc_listener", "include/rpc_listener.hxx"]}
{"id": "C94", "title": "Membership changes keep the guarantees of the cluster", "statement": "While servers are added with add_srv and removed with remove_srv, one after the other and each change committed before the next is made, there is at most one leader per term, and the servers apply the same command at each index.", "quantifier": "For all numbers of servers, all configurations they start with, all sequences of additions and removals, all interleavings of messages, timers, commit threads, crashes and restarts, and all losses, delays and repetitions of messages.", "why_tests_cant": "A test changes the members of a cluster whose servers have all applied the last change before the next is made, and does not hold an election at the same time. Here servers use different configurations, which takes a slow commit thread on one server and elections on two.", "anchors": ["src/raft_server.cxx reconfigure, commit_in_bg, request_vote", "src/raft_server_req_handlers.cxx handle_add_srv_req, handle_rm_srv_req, sync_log_to_new_srv, rm_srv_from_cluster", "src/raft_server_resp_handlers.cxx handle_voting_resp"]}
{"id": "C95", "title": "Threads that use a server do not block each other for ever", "statement": "Whatever calls of users, requests, answers, timers, snapshot completions and rounds of the commit thread run at the same time in any number of threads, while one of them has not finished some thread can go on; so if nothing new is begun, all of them finish. Listeners for events may call any function of the server; the state machine may ask is_leader.", "quantifier": "every number of threads, every mix of the entry points of a server that is neither being constructed nor destroyed, every interleaving, whether or not readers of a shared mutex may overtake waiting writers", "why_tests_cant": "a deadlock needs a certain interleaving of certain threads; the number of interleavings has no bound", "anchors": ["src/raft_server.cxx", "src/raft_server_req_handlers.cxx", "src/raft_server_resp_handlers.cxx", "src/fs_log_store.cxx", "src/asio_service.cxx", "include/pp_util.hxx"]}
{"id": "C96", "title": "No thread takes a mutex in a way that the standard does not allow", "statement": "A thread takes a mutex that it already has only if the mutex is recursive.", "quantifier": "every number of threads, every mix of entry points, every interleaving", "why_tests_cant": "taking a std::shared_timed_mutex twice is undefined; with common implementations it goes well, so that tests see nothing", "anchors": ["src/raft_server_resp_handlers.cxx:220-237", "src/raft_server.cxx:438", "src/raft_server.cxx:347", "include/pp_util.hxx:39"]}
{"id": "C97", "title": "Members of a server are not used by one thread while another one changes them", "statement": "No member of a server that threads share is read or written by a thread while another thread writes it.", "quantifier": "every number of threads, every mix of entry points, every interleaving", "why_tests_cant": "a data race shows only in certain interleavings, and even then mostly goes well", "anchors": ["include/raft_server.hxx:113-156", "src/raft_server.cxx:993", "src/raft_server.cxx:553-561", "src/raft_server.cxx:786", "src/raft_server_req_handlers.cxx:384", "src/raft_server_resp_handlers.cxx:38"]}
{"id": "C98", "title": "A compaction that fails leaves the log as it was", "statement": "If compact of the file based log store returns false or throws, the store and a store opened on its files afterwards have the same log as before.", "quantifier": "every reachable store, every index, every set of calls of the file system that fail, every backup file left by an earlier compaction", "why_tests_cant": "the calls fail only when the disk does, each combination of failures takes another path, and the restoring code runs in none of the tests", "anchors": ["src/fs_log_store.cxx:644-850", "src/fs_log_store.cxx:811-834"]}
{"id": "C99", "title": "A compaction that reports success has removed exactly the entries up to the given index", "statement": "If compact(i) of the file based log store returns true, the store and its files have the entries behind i unchanged and no others, also if calls of the file system failed or the disk had no room for the backups.", "quantifier": "every reachable store, every index, every set of failing calls, every amount of free space for each copy, every backup left by an earlier compaction", "why_tests_cant": "needs a full disk or failing calls at one particular moment", "anchors": ["src/fs_log_store.cxx:697-702", "src/fs_log_store.cxx:744-807"]}
{"id": "C100", "title": "An answer to a request is handled by an object that still exists", "statement": "When the answer to a request that a server has sent arrives, or the request fails, the object that keeps track of the server asked still exists, whatever happened in between.", "quantifier": "every history of inputs of a server that is not stopped, every order of answers, every change of the members and of the leader", "why_tests_cant": "needs a member removed, or a term changed, while a request is on its way; using a freed object often goes unnoticed", "anchors": ["src/peer.cxx:21-50", "src/raft_server.cxx:435", "src/raft_server.cxx:487", "src/raft_server.cxx:766-790", "src/raft_server_resp_handlers.cxx:425-453"]}
{"id": "C101", "title": "A majority can always make progress", "statement": "Whatever has happened before, a majority of the servers that is up and whose messages arrive can elect a leader, and this leader can get a command of a client stored by the whole majority, committed and applied, without help from the other servers. No execution gets the cluster into a state from which that is impossible.", "quantifier": "every cluster, every reachable state (crashes, lost, late and repeated messages, any number of elections), every majority, every command", "why_tests_cant": "a state in which the cluster is stuck is reached only by particular orders of crashes, elections and late messages, and a test that waits cannot tell stuck from slow", "anchors": ["src/raft_server.cxx:174-256", "src/raft_server.cxx:302-372", "src/raft_server.cxx:430-464", "src/raft_server.cxx:905-940", "src/raft_server_resp_handlers.cxx:85-141", "src/raft_server_resp_handlers.cxx:198-239", "src/raft_server_req_handlers.cxx:86-264"]}
{"id": "C102", "title": "Settings are respected, and every setting that is accepted works", "statement": "The settings of a server are respected: the election timeout is drawn between the two bounds, heartbeats are sent at shorter intervals than any election timeout, requests carry no more log entries than configured. Every combination of values that raft_params accepts gives a server that works: no computation with them is undefined, and the cluster can commit commands.", "quantifier": "every chain of calls on raft_params, every history of a server, every execution of a cluster", "why_tests_cant": "the values are 32-bit numbers that are combined with each other and with 64-bit indexes; tests run with a few sensible combinations, and a cluster that never commits looks like one that is slow", "anchors": ["include/raft_params.hxx:29-206", "src/raft_server.cxx:88-92", "src/raft_server.cxx:416", "src/raft_server.cxx:679-682", "src/raft_server.cxx:1053-1075", "include/peer.hxx:33-36", "include/peer.hxx:161-169"]}
{"id": "C103", "title": "Messages in the log are complete and right", "statement": "Every message that the library writes to the log shows the values it is about, in full: formatting it is well defined, it does not write beyond its buffer, nothing is cut off, and numbers are shown as they are. In particular an error that ends the process is reported before.", "quantifier": "every place in the library that formats a message, every value of its arguments", "why_tests_cant": "that a format does not fit its arguments shows on some platforms only, and ends are lost only for numbers and texts longer than those of tests; messages about fatal errors are hardly ever produced", "anchors": ["include/strfmt.hxx:25-45", "src/asio_service.cxx:694-704", "src/raft_server.cxx:684-686", "src/raft_server.cxx:700-701", "src/raft_server.cxx:805-815", "src/raft_server.cxx:838-840", "src/raft_server.cxx:874-875", "src/raft_server_req_handlers.cxx:27-36", "src/raft_server_resp_handlers.cxx:202-215"]}
{"id": "C104", "title": "Only what the state machine has read is sent as a snapshot", "statement": "Each block of a snapshot that a server sends holds the bytes that its state machine has put in the buffer given to read_snapshot_data, and read_snapshot_data has returned at least the number of bytes asked for. If it returns less, or reports failure, no block is sent, and no member applies a snapshot made from it.", "quantifier": "all histories of a server, all state machines, all snapshots and offsets", "why_tests_cant": "needs a state machine that fails while a snapshot is being sent; a test whose state machine always succeeds says nothing about the conversion of the result", "anchors": ["src/raft_server.cxx:830-845", "src/snapshot_sync_req.cxx:41-51", "src/buffer.cxx:252-267", "include/state_machine.hxx:37"]}
{"id": "C105", "title": "A server that has been told to end takes no further part", "statement": "Once the library has called system_exit of the state manager, the server sends nothing, applies nothing and changes no state any more, uses no invalid memory, and skips no command, also if that call returns, as it does in both state managers of the tests.", "quantifier": "all states of a server, all state machines and state managers whose system_exit returns, all later inputs", "why_tests_cant": "a test with a state manager that ends the process never sees what comes after the call, and one whose state manager returns has to reach each of the calls and then watch every later step of the server and of the others", "anchors": ["include/state_mgr.hxx:37", "tests/src/test_impls.cxx:216", "src/raft_server.cxx:174-217", "src/raft_server.cxx:540-606", "src/raft_server.cxx:638-696", "src/raft_server.cxx:698-787", "src/raft_server.cxx:795-880", "src/raft_server.cxx:884-949"]}
{"id": "C106", "title": "The event listener knows whether the server leads", "statement": "An application that follows the events of its listener knows the role of its server: since the server was started, it is leader exactly if the last of the two events become_leader and become_follower was become_leader.", "quantifier": "all histories of a running server since its start: all inputs, messages, timeouts and exceptions, all contents of the disk", "why_tests_cant": "the role is set in five places and the events are raised in two; a test sees the usual election and step-down, but not every order of messages in which the role changes", "anchors": ["include/events.hxx", "src/raft_server.cxx:238-255", "src/raft_server.cxx:430-464", "src/raft_server.cxx:473-494", "src/raft_server_req_handlers.cxx:594-621", "src/raft_server_resp_handlers.cxx:198-276"]}
{"id": "C107", "title": "The heartbeat of a removed member does no harm", "statement": "When a member is removed from the cluster, the heartbeat timer that the leader keeps for it ends with it: no later expiry of that timer, and none that is being handled, uses what the server has freed for that member.", "quantifier": "all interleavings of the threads that schedule, cancel, expire and handle the heartbeat of one member and of the thread that removes the member, any number of heartbeats", "why_tests_cant": "the member must be removed in the few microseconds between the test of the cancelled flag by a worker thread and its taking of the server's lock; a test can wait for that for years, and then a use of freed memory may pass unnoticed", "anchors": ["include/peer.hxx", "include/timer_task.hxx", "include/delayed_task.hxx:47-53", "src/raft_server.cxx:373-397", "src/raft_server.cxx:758-784", "src/raft_server_resp_handlers.cxx:425-445", "src/asio_service.cxx:568-574", "src/asio_service.cxx:719-739"]}
{"id": "C108", "title": "Copies of buffers, and buffers on streams", "statement": "A copy of a buffer is a buffer of its own that holds exactly the bytes of the source from its position to its end, all still to be read. Writing a buffer to a stream writes exactly these bytes and reading a buffer from a stream fills it from its position to its end with the next bytes of the stream, without moving positions and without touching memory outside the buffer; a stream that is bad or too short or too full gives an exception. Any sequence of buffers written to a stream is read back exactly into buffers with as much space.", "quantifier": "all buffers, all positions, all streams, all finite sequences of buffers", "why_tests_cant": "2^31 sizes on both sides of the small/big switch, positions anywhere, a size that goes through a 32-bit signed int; a test samples a few", "anchors": ["src/buffer.cxx: buffer::copy", "src/buffer.cxx:269-303"]}
{"id": "C109", "title": "Whatever bytes a payload has, decoding it does no harm", "statement": "The payload of a message or log entry is decoded as a server, a configuration, a snapshot, a block of a snapshot, a log entry or a pack of log entries. Whatever bytes it has, decoding gives an object made of exactly these bytes, or throws an exception; the behaviour is never undefined.", "quantifier": "for all payloads and all states of the store a pack is applied to", "why_tests_cant": "the payloads come from other processes and from disk; tests decode what the encoder wrote, and undefined behaviour need not show in a test", "anchors": ["src/srv_config.cxx:21-26", "src/cluster_config.cxx:46-58", "src/snapshot.cxx:21-28", "src/snapshot_sync_req.cxx:22-39", "include/log_entry.hxx:115-121", "src/fs_log_store.cxx:567-642", "src/raft_server_req_handlers.cxx:488", "src/raft_server_req_handlers.cxx:618"]}
{"id": "C110", "title": "Servers in one process do not affect each other", "statement": "A server that shares its process with other servers (of the same or of other clusters) does what it could do if it were alone in its process: it has the same state, sends the same messages and gives the same answers.", "quantifier": "all executions of any number of servers in one process, with any interleaving of their inputs, starts and ends", "why_tests_cant": "the interference goes through a hidden variable and depends on which server was asked before, over unboundedly long executions", "anchors": ["src/raft_server.cxx: is_leader, replicate_log", "src/raft_server_req_handlers.cxx: handle_cli_req"]}
{"id": "C111", "title": "An append that fails leaves the log as it was", "statement": "If append of the file log store ends by an exception because the disk is full, the store goes on showing the log without the entry: next_slot, last_entry, entry_at and term_at answer as before the call, and a store that is opened on the files afterwards shows the same log.", "quantifier": "for all stores reached by any calls, all entries that fit, and all combinations of the four calls of append that may fail with any number of bytes written before", "why_tests_cant": "A test would need a disk that fills up at a chosen byte, for each of the four calls and each number of bytes. Where the failure is noticed depends on the buffers of the standard library.", "anchors": ["src/fs_log_store.cxx:276-297 append", "src/buffer.cxx:269-284 operator<<"]}
{"id": "C112", "title": "Calls of different threads on a log store take effect one after the other", "statement": "A file log store may be used by several threads at once. What the threads are answered by next_slot, start_index, last_entry, append, write_at, log_entries, entry_at, term_at, pack, apply_pack and compact is what they would be answered if each call had taken effect on the log at one moment between its beginning and its return.", "quantifier": "for all logs, all numbers of threads, all calls, all interleavings of their steps and all cache sizes", "why_tests_cant": "The outcome depends on the interleaving of steps inside the calls; a test sees a few of them, and only some windows of a few instructions are harmful.", "anchors": ["src/fs_log_store.cxx:253-297 next_slot, start_index, last_entry, append", "src/fs_log_store.cxx:299-367 write_at", "src/fs_log_store.cxx:369-513 log_entries, entry_at, term_at", "src/fs_log_store.cxx:565-810 apply_pack, compact", "include/fs_log_store.hxx: log_store_buffer, store_lock_"]}
{"id": "C113", "title": "Append and snapshot requests of a term come from its leader", "statement": "A server sends append_entries and install_snapshot requests that carry a term only after it has become leader of this term. In a cluster, all such requests of a term come from the same server, and a server that leads a term gets none of them from another one.", "quantifier": "for all histories of a server with crashes and restarts, and all executions of clusters of any size with any settings, with pre-votes, and with snapshots taken, sent and installed", "why_tests_cant": "The requests are sent from many places: answers, timers, elections, commits, client requests, membership changes. A test drives a few of them in the order that is meant; the answer that comes late is not among them.", "anchors": ["src/raft_server.cxx:345-397 request_append_entries, handle_hb_timeout", "src/raft_server.cxx:430-464 become_leader", "src/raft_server.cxx:513-538 commit", "src/raft_server_resp_handlers.cxx:85-196, 295-385 handlers of answers", "src/raft_server_req_handlers.cxx:536-653 sync_log_to_new_srv, rm_srv_from_cluster", "src/raft_server_req_handlers.cxx:94-101,302-310 a leader that hears another leader of its term ends"]}
{"id": "C114", "title": "A crash while an entry is overwritten leaves the log before or after", "statement": "If the process dies at any moment during write_at, the store can be opened again and shows either the log before the call or the log after it. In particular every entry it shows has been given to the store.", "quantifier": "for all stores, all indexes of existing entries, all entries, every prefix of the file operations of write_at and all cache sizes", "why_tests_cant": "There are as many moments as bytes in the entry, and what is shown afterwards depends on how the old positions cut the new bytes; a test cannot die at each of them for all lengths.", "anchors": ["src/fs_log_store.cxx:299-367 fs_log_store::write_at", "src/fs_log_store.cxx:181-251 constructor, fill_buffer"]}
{"id": "C115", "title": "An overwriting that fails leaves the log as it was", "statement": "If write_at ends by an exception because the disk is full or a file cannot be cut off, the store shows the log as it was before the call, and also when it is opened again.", "quantifier": "for all stores, all indexes of existing entries, all entries, every call of write_at that fails and every number of bytes written before", "why_tests_cant": "The failure must hit one of six calls after a certain number of bytes; no test fills a disk at each of them or makes truncate fail.", "anchors": ["src/fs_log_store.cxx:299-367 fs_log_store::write_at", "src/buffer.cxx:269-284 operator<<"]}
{"id": "C116", "title": "A server that reports logs_catch_up has caught up", "statement": "When the event listener is called with logs_catch_up, all entries that the server knows to be committed are applied to the state machine.", "quantifier": "for all interleavings of the commit thread with the threads that handle messages and timers and with the destructor, all lengths of the log and all commit indexes", "why_tests_cant": "The report is made without a lock after a test that reads three shared numbers; whether it is true depends on the interleaving and on how many entries a request carried.", "anchors": ["src/raft_server.cxx:882-949 raft_server::commit_in_bg", "include/events.hxx:24-29 raft_event"]}
{"id": "C117", "title": "A crash while a pack is applied leaves the log before or a prefix of the pack added", "statement": "If the process dies at any moment during apply_pack at the end of the log, the store can be opened again and shows the log before the call followed by the first entries of the pack, possibly none or all of them.", "quantifier": "for all stores, all packs, every part of the positions and of the entries that has reached the two files, and all cache sizes", "why_tests_cant": "The moments are pairs of numbers of bytes in two files written through independent buffers; a test cannot stop the process at all of them.", "anchors": ["src/fs_log_store.cxx:567-642 fs_log_store::apply_pack", "src/fs_log_store.cxx:181-251 constructor", "src/fs_log_store.cxx:859-889 fill_buffer"]}
{"id": "C118", "title": "A pack that cannot be applied leaves the log as it was", "statement": "If apply_pack cannot write all of its data, the call ends by an exception, and the store shows the log as it was, in the running process and when it is opened again.", "quantifier": "for all stores, all packs, all places in or behind the log, every number of bytes that still fit into each of the two files, and all cache sizes", "why_tests_cant": "The disk is full at any byte of either file, and the two streams fail independently; a test has no full disk, and cannot try all of them.", "anchors": ["src/fs_log_store.cxx:567-642 fs_log_store::apply_pack", "src/fs_log_store.cxx:181-251 constructor", "src/fs_log_store.cxx:859-889 fill_buffer"]}
{"id": "C119", "title": "Closing a store keeps its log", "statement": "After close() of the log store, whatever is called, the calls that would change the log throw and change nothing: cached entries are shown as before, and a store opened on the directory shows the log as it was when it was closed.", "quantifier": "for all stores, all sequences of calls after close with all arguments, and all cache sizes of the store opened later", "why_tests_cant": "The calls use three streams in many orders, and each reacts to a closed stream in its own way; a test tries some calls in one order.", "anchors": ["src/fs_log_store.cxx:852-857 close", "src/fs_log_store.cxx:253-808 all calls", "include/fs_log_store.hxx:169"]}
{"id": "C120", "title": "Log lines show the time of the call and are in order of time", "statement": "Every line of the log file of the logger shows the date and time at which it was logged, and lines logged one after another are in that order with times that do not go back.", "quantifier": "for all numbers of threads that log, all interleavings of their calls, all times between them, and any calendar", "why_tests_cant": "The fields of the time are in one structure of the process that is written and read without a mutex; a test does not meet the moments between these accesses.", "anchors": ["src/asio_service.cxx:687-711 fs_based_logger::write_log"]}
{"id": "C121", "title": "A snapshot that is applied has been sent as a whole", "statement": "When a leader has sent the block that is marked as the last one of a snapshot to a server, then it has sent this server all bytes of that snapshot, so that a server that got all requests never applies a snapshot of which it lacks a part.", "quantifier": "all histories of a server, with any number of terms as leader, crashes, restarts and answers in any order; all snapshots, all block sizes", "why_tests_cant": "needs an answer of an earlier leadership that arrives while another snapshot is being sent; the histories are unbounded", "anchors": ["src/raft_server_resp_handlers.cxx:143-196 handle_install_snapshot_resp", "src/raft_server_resp_handlers.cxx:335-375 handle_ext_resp", "src/raft_server.cxx:795-857 create_sync_snapshot_req", "include/snapshot_sync_ctx.hxx:24-56"]}
{"id": "C122", "title": "The heartbeat timers run exactly while the server leads", "statement": "As long as a server is leader, the heartbeat timer of each other member runs, also for members that are added later and whatever requests fail; as soon as it is leader no more, none of them runs.", "quantifier": "all histories of a server: any number of terms as leader, changes of the configuration, failed requests, exceptions, crashes and restarts, expiries of timers in any order", "why_tests_cant": "an invariant of all handlers; a timer that is not set again stays silent only from then on, in a state that tests have to find first", "anchors": ["src/raft_server.cxx:373-397 handle_hb_timeout", "src/raft_server.cxx:430-490 become_leader, enable_hb_for_peer, become_follower", "src/raft_server.cxx:730-787 reconfigure", "include/peer.hxx:88-101 enable_hb"]}
{"id": "C123", "title": "A leader is not ended by its own election timer", "statement": "While a server is leader its election timer does not run, and no expiry of this timer is handled by a leader. So the library never calls system_exit of the state manager because of an election timeout of a leader.", "quantifier": "all histories of a server: any number of terms as leader, messages and answers in any order, invitations, snapshots, changes of the configuration, exceptions, crashes, restarts and expiries", "why_tests_cant": "an invariant of all handlers that start the timer; to break it a test has to time an expiry or a late answer into the moment of an election", "anchors": ["src/raft_server.cxx:174-236 handle_election_timeout", "src/raft_server.cxx:399-433 restart_election_timer, stop_election_timer, become_leader", "src/raft_server_resp_handlers.cxx handle_prevote_resp", "include/delayed_task.hxx:47-63 execute, cancel, reset"]}
