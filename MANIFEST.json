{
 "claims": [
  {
   "property": "C01",
   "status": "proved",
   "theorems": [
    "Cs.Buffer.C01_header"
   ],
   "note": ""
  },
  {
   "property": "C02",
   "status": "proved",
   "theorems": [
    "Cs.Buffer.C02_roundtrip"
   ],
   "note": ""
  },
  {
   "property": "C03",
   "status": "proved",
   "theorems": [
    "Cs.Buffer.C03_call_safe",
    "Cs.Buffer.C03_header_truthful",
    "Cs.Buffer.C03_frame"
   ],
   "note": ""
  },
  {
   "property": "C04",
   "status": "partial",
   "theorems": [
    "Cs.Buffer.C04_bulk_get_partial",
    "Cs.Buffer.C04_bulk_get_unchecked"
   ],
   "note": "the code does not check the source; the second theorem is the counterexample"
  },
  {
   "property": "C05",
   "status": "proved",
   "theorems": [
    "Cs.Codec.C05_srv_config",
    "Cs.Codec.C05_empty_endpoint"
   ],
   "note": "endpoints must be non-empty and free of NUL; the second theorem shows the first condition is needed"
  },
  {
   "property": "C06",
   "status": "proved",
   "theorems": [
    "Cs.Codec.C06_cluster_config"
   ],
   "note": ""
  },
  {
   "property": "C07",
   "status": "proved",
   "theorems": [
    "Cs.Codec.C07_snapshot"
   ],
   "note": ""
  },
  {
   "property": "C08",
   "status": "proved",
   "theorems": [
    "Cs.Codec.C08_snapshot_sync_req"
   ],
   "note": ""
  },
  {
   "property": "C09",
   "status": "proved",
   "theorems": [
    "Cs.Codec.C09_log_entry",
    "Cs.Codec.C09_term_in_buffer"
   ],
   "note": ""
  },
  {
   "property": "C10",
   "status": "proved",
   "theorems": [
    "Cs.Rpc.C10_request",
    "Cs.Rpc.C10_limit"
   ],
   "note": ""
  },
  {
   "property": "C11",
   "status": "proved",
   "theorems": [
    "Cs.Rpc.C11_response"
   ],
   "note": ""
  },
  {
   "property": "C12",
   "status": "partial",
   "theorems": [
    "Cs.Rpc.C12_frames_partial",
    "Cs.Rpc.C12_overrun_reads_outside",
    "Cs.Rpc.C12_witness",
    "Cs.Rpc.C12_type_out_of_table"
   ],
   "note": "the code reads outside the frame when an entry announces more bytes than are left; proved exactly when this happens"
  },
  {
   "property": "C13",
   "status": "proved",
   "theorems": [
    "Cs.Rpc.C13_sequence"
   ],
   "note": ""
  },
  {
   "property": "C14",
   "status": "partial",
   "theorems": [
    "Cs.LogStore.C14_step_partial",
    "Cs.LogStore.C14_default_partial",
    "Cs.LogStore.C14_reads",
    "Cs.LogStore.link_serialize",
    "Cs.LogStore.link_decode"
   ],
   "note": "Holds for all histories whose replacements leave no old bytes behind (Log.Clean) and, for bounded caches, whose writes and range ends are not before the cached part; the excluded cases violate the property: see C17_not_stale_bytes, C20_not_stale_cache, C16_not_overrun."
  },
  {
   "property": "C15",
   "status": "partial",
   "theorems": [
    "Cs.LogStore.C15_reopen",
    "Cs.LogStore.C15_not_cache_zero"
   ],
   "note": "Proved for every cache size except 0; with cache size 0 a non-empty store cannot be opened (proved)."
  },
  {
   "property": "C16",
   "status": "partial",
   "theorems": [
    "Cs.LogStore.C16_range_partial",
    "Cs.LogStore.C16_range_default",
    "Cs.LogStore.C16_empty",
    "Cs.LogStore.C16_not_overrun"
   ],
   "note": "Exact with the default cache size, and when the range does not end before the cached part; otherwise the code returns too many entries (C16_not_overrun)."
  },
  {
   "property": "C17",
   "status": "partial",
   "theorems": [
    "Cs.LogStore.C17_write_at_partial",
    "Cs.LogStore.C17_not_stale_bytes"
   ],
   "note": "Proved when the new entry is not shorter than the last entry it replaces, or older entries follow; otherwise old payload bytes come back after reopening (C17_not_stale_bytes)."
  },
  {
   "property": "C18",
   "status": "proved",
   "theorems": [
    "Cs.LogStore.C18_compact"
   ],
   "note": ""
  },
  {
   "property": "C19",
   "status": "proved",
   "theorems": [
    "Cs.LogStore.C19_pack"
   ],
   "note": "Ranges of at least one entry; for other numbers pack throws or packs everything up to the end of the log (C102: pack_zero_throws, pack_negative_throws, pack_negative_all)"
  },
  {
   "property": "C20",
   "status": "partial",
   "theorems": [
    "Cs.LogStore.C20_cache_partial",
    "Cs.LogStore.C20_not_stale_cache",
    "Cs.LogStore.C20_not_readable"
   ],
   "note": "Proved for all reachable stores; write_at before the cached part is excluded there and makes the cache stale (C20_not_stale_cache)."
  },
  {
   "property": "C21",
   "status": "partial",
   "theorems": [
    "Cs.LogStore.C21_effects",
    "Cs.LogStore.C21_crash_partial",
    "Cs.LogStore.C21_not_openable"
   ],
   "note": "The property is false; what each crash point leaves is characterised exactly."
  },
  {
   "property": "C22",
   "status": "partial",
   "theorems": [
    "Cs.LogStore.C22_effects_all",
    "Cs.LogStore.C22_effects_part",
    "Cs.LogStore.C22_not_all",
    "Cs.LogStore.C22_not_part",
    "Cs.LogStore.C22_ends_partial"
   ],
   "note": "The property is false (C22_not_all, C22_not_part); proved for the ends of the operation."
  },
  {
   "property": "C23",
   "status": "partial",
   "theorems": [
    "Cs.LogStore.C23_reads_partial",
    "Cs.LogStore.C23_not_term_at"
   ],
   "note": "entry_at and term_at before the log leave the store unchanged; term_at past the end disables appends (C23_not_term_at)."
  },
  {
   "property": "C24",
   "status": "partial",
   "theorems": [
    "Cs.Raft.term_never_decreases_partial",
    "Cs.Raft.join_lowers_term"
   ],
   "note": "All inputs except invitations to join; an invitation sets the term to that of the sender (join_lowers_term)."
  },
  {
   "property": "C25",
   "status": "partial",
   "theorems": [
    "Cs.Raft.one_vote_per_term_partial",
    "Cs.Raft.join_allows_second_vote"
   ],
   "note": "All histories without invitations to join; an invitation clears the vote (join_allows_second_vote)."
  },
  {
   "property": "C26",
   "status": "partial",
   "theorems": [
    "Cs.Raft.announced_vote_is_saved_partial"
   ],
   "note": "All histories without invitations to join."
  },
  {
   "property": "C27",
   "status": "partial",
   "theorems": [
    "Cs.Raft.vote_granted_iff_partial",
    "Cs.Raft.vote_ignores_snapshot"
   ],
   "note": "Exact characterisation in terms of the log store; when the voter's log is empty after a snapshot the code compares with term 0 (vote_ignores_snapshot)."
  },
  {
   "property": "C28",
   "status": "proved",
   "theorems": [
    "Cs.Raft.prevote_request_pure",
    "Cs.Raft.prevote_response_pure"
   ],
   "note": ""
  },
  {
   "property": "C29",
   "status": "proved",
   "theorems": [
    "Cs.Raft.append_agrees"
   ],
   "note": ""
  },
  {
   "property": "C30",
   "status": "proved",
   "theorems": [
    "Cs.Raft.duplicate_append_keeps_log",
    "Cs.Raft.redelivered_append_keeps_log",
    "Cs.Raft.redelivered_append_after_compaction_throws"
   ],
   "note": "The third theorem: redelivery after compaction ends with an exception (the log is not changed)."
  },
  {
   "property": "C31",
   "status": "partial",
   "theorems": [
    "Cs.Raft.stale_vote_refused",
    "Cs.Raft.stale_append_refused_partial",
    "Cs.Raft.stale_snapshot_refused_partial",
    "Cs.Raft.stale_append_kills",
    "Cs.Raft.stale_snapshot_installed"
   ],
   "note": "Vote requests always; append requests unless the index they name has been compacted (stale_append_kills); snapshot requests unless the server is catching up (stale_snapshot_installed)."
  },
  {
   "property": "C32",
   "status": "proved",
   "theorems": [
    "Cs.Raft.client_request"
   ],
   "note": ""
  },
  {
   "property": "C33",
   "status": "partial",
   "theorems": [
    "Cs.Raft.commit_index_never_decreases_partial",
    "Cs.Raft.snapshot_lowers_commit_index",
    "Cs.Raft.join_resets_commit_index"
   ],
   "note": "Applied index: all inputs except invitations to join; commit index: also except snapshot installation. The excluded inputs violate the property."
  },
  {
   "property": "C34",
   "status": "partial",
   "theorems": [
    "Cs.Raft.command_is_next",
    "Cs.Raft.applied_in_order_partial",
    "Cs.Raft.commands_never_repeat_partial",
    "Cs.Raft.join_repeats_commands"
   ],
   "note": "Histories without invitations to join; an invitation sets the applied index back to 0 and commands are handed over again (join_repeats_commands). command_is_next holds for all inputs."
  },
  {
   "property": "C35",
   "status": "proved",
   "theorems": [
    "Cs.Raft.commit_index_backed_by_majority",
    "Cs.Raft.accepted_next_index_positive"
   ],
   "note": "Membership fixed during the history; servers count as holding an index when they reported it in an append response."
  },
  {
   "property": "C36",
   "status": "partial",
   "theorems": [
    "Cs.Raft.leader_commits_entry_of_earlier_term",
    "Cs.Raft.commits_own_term_partial",
    "Cs.Raft.leader_log_own_term"
   ],
   "note": "The code violates this: leader_commits_entry_of_earlier_term is a history in which a leader commits an entry of an earlier term by counting. Proved: that only happens to entries the leader had before it was elected; as long as it leads, what it commits behind them has its term, whatever it handles (without invitations to join)."
  },
  {
   "property": "C37",
   "status": "partial",
   "theorems": [
    "Cs.Raft.leader_needs_majority_partial",
    "Cs.Raft.removed_server_vote_counts"
   ],
   "note": "Histories without membership changes and snapshot installation; removed_server_vote_counts is the violation under a membership change."
  },
  {
   "property": "C38",
   "status": "partial",
   "theorems": [
    "Cs.Raft.add_request_partial",
    "Cs.Raft.remove_request_partial",
    "Cs.Raft.two_changes_at_once",
    "Cs.Raft.third_change_accepted"
   ],
   "note": "The decision is exact for every state and request with 'a change is under way' read as the server's own flag; the flag does not cover all uncommitted changes (two_changes_at_once, third_change_accepted)."
  },
  {
   "property": "C39",
   "status": "proved",
   "theorems": [
    "Cs.Raft.apply_configuration_member",
    "Cs.Raft.apply_configuration_not_member"
   ],
   "note": "A configuration newer than the one in force, as the code requires."
  },
  {
   "property": "C40",
   "status": "proved",
   "theorems": [
    "Cs.Raft.one_leader_per_term",
    "Cs.Raft.leaders_of_a_term",
    "Cs.Raft.one_sender_per_term"
   ],
   "note": "All executions of clusters with fixed members (Verif/Cluster/Spec.lean): messages lost, repeated, delayed and reordered, crashes at any point and restarts, with and without prevote. Membership changes and snapshots are excluded. Stated for the events of becoming leader, for the states of servers at different times, and for the append requests on the network."
  },
  {
   "property": "C41",
   "status": "proved",
   "theorems": [
    "Cs.Raft.log_matching"
   ],
   "note": "For the logs on the disks of any two servers in any reachable state."
  },
  {
   "property": "C42",
   "status": "proved",
   "theorems": [
    "Cs.Raft.leader_append_only"
   ],
   "note": "Stronger: until the term on its disk changes, also if the server crashes and restarts in between; since a crash can stop a handler after any effect, this covers the disk at all times."
  },
  {
   "property": "C43",
   "status": "proved",
   "theorems": [
    "Cs.Raft.leader_completeness"
   ],
   "note": ""
  },
  {
   "property": "C44",
   "status": "partial",
   "theorems": [
    "Cs.Raft.state_machine_safety_partial",
    "Cs.Raft.state_machine_safety_timely_partial",
    "Cs.Raft.applied_same_term_partial",
    "Cs.Raft.state_machine_safety_fails_lead",
    "Cs.Raft.state_machine_safety_fails_follow",
    "Cs.Raft.state_machine_safety_fails_again",
    "Cs.Raft.state_machine_safety_fails_late"
   ],
   "note": "The code violates it in four independent ways, each shown by an execution in which the other three do not happen: a leader commits an entry of an earlier term by counting replicas (Figure 8 of the Raft paper); a follower takes over a commit index beyond the entries of the append request; a server that is elected again keeps the matched indexes of its earlier term; a leader accepts late answers of earlier terms. Proved: safety holds in all executions in which none of the four happens, safety holds if every commit is backed by a majority, and in all executions entries of the same term applied at the same index are equal."
  },
  {
   "property": "C45",
   "status": "partial",
   "theorems": [
    "Cs.Raft.runs_to_end_partial",
    "Cs.Raft.stop_cause_partial",
    "Cs.Raft.shutdown_late_timer",
    "Cs.Raft.shutdown_late_answer"
   ],
   "note": "The code violates it in two ways, each shown by an execution of three servers: a leader that handles an expiry of its election timer which was queued before the timer was stopped ends its process, and so does a leader that gets a late positive answer of an earlier term which names entries its log no longer has. Proved: these are the only causes (followers and candidates never stop, a leader never gets an append request of its own term), and in executions without them every input is handled to its end, without exit, exception or undefined behaviour."
  },
  {
   "property": "C46",
   "status": "partial",
   "theorems": [
    "Cs.Raft.is_leader_withdrawn_partial",
    "Cs.Raft.is_leader_role",
    "Cs.Raft.is_leader_stuck",
    "Cs.Raft.silent_leader_stays",
    "Cs.Raft.is_leader_wraps"
   ],
   "note": "The code violates it: after one call that found a majority, the static variable keeps the answer fixed whatever happens (is_leader_stuck, for all later inputs; silent_leader_stays, a history), and silence of 25 days wraps around in 32 bits. Proved: until then, and for times below 2^31 ms, the answer is exact in both directions for every set of peers."
  },
  {
   "property": "C47",
   "status": "partial",
   "theorems": [
    "Cs.Raft.replicate_log_effect_partial",
    "Cs.Raft.replicate_log_false",
    "Cs.Raft.replicate_log_accepts_silently"
   ],
   "note": "The code violates it: the call never returns true. Proved: when the entry is appended and what is appended, without interference of other threads."
  },
  {
   "property": "C52",
   "status": "partial",
   "theorems": [
    "Cs.Raft.hb_interval_bounds_partial",
    "Cs.Raft.hb_interval_resets",
    "Cs.Raft.hb_interval_falls",
    "Cs.Raft.backoff_defined_partial",
    "Cs.Raft.backoff_undefined"
   ],
   "note": "All histories and parameters with a back-off that is not negative; a negative one is accepted by the code and lowers the interval. The sum does not overflow in any history if the settings are below 2^30; if interval and back-off together reach 2^31 the first failed request to any member overflows. The second half (return after one success) holds without restriction."
  },
  {
   "property": "C48",
   "status": "partial",
   "theorems": [
    "Cs.Raft.snapshot_transferred_partial",
    "Cs.Raft.snapshot_too_large_throws"
   ],
   "note": "Snapshots of less than 2^31 bytes, all positive block sizes, messages that arrive: the blocks given to the member's state machine cut the bytes without gap and overlap and apply_snapshot is called once, behind them. From 2^31 bytes on the leader throws instead of sending (snapshot_too_large_throws). Lost answers: C61; snapshots of the leader's own: C56."
  },
  {
   "property": "C49",
   "status": "proved",
   "theorems": [
    "Cs.Raft.compaction_keeps_reserved"
   ],
   "note": ""
  },
  {
   "property": "C56",
   "status": "partial",
   "theorems": [
    "Cs.Raft.own_snapshot_kills_leader",
    "Cs.Raft.own_snapshot_history",
    "Cs.Raft.snapshot_transferred_partial"
   ],
   "note": "The code violates it: snapshots a leader has made itself carry the size 0, and the leader exits when it has to send one (for all states; and a history). Proved for snapshots whose size is known, that is those received or reported by the state machine at start."
  },
  {
   "property": "C57",
   "status": "partial",
   "theorems": [
    "Cs.Raft.snapshots_go_on_partial",
    "Cs.Raft.snapshots_stop",
    "Cs.Raft.snapshots_stop_history"
   ],
   "note": "The code violates it: with fs_log_store, compacting below the start of the log throws and the flag stays set; this happens to every server that has received a snapshot. Proved otherwise."
  },
  {
   "property": "C60",
   "status": "partial",
   "theorems": [
    "Cs.Raft.empty_member_left_behind",
    "Cs.Raft.busy_member_gets_nothing"
   ],
   "note": "The code violates it in every such state: the heartbeat ends by an exception of the log store, nothing is sent then or later. Nothing positive is left to prove."
  },
  {
   "property": "C61",
   "status": "partial",
   "theorems": [
    "Cs.Raft.lost_ack_resends_forever"
   ],
   "note": "The code violates it: the same request and the same refusal are exchanged any number of times."
  },
  {
   "property": "C63",
   "status": "proved",
   "theorems": [
    "Cs.Raft.one_snapshot_at_a_time"
   ],
   "note": "From any state on, as long as the server runs and no report of the state machine comes in."
  },
  {
   "property": "C50",
   "status": "partial",
   "theorems": [
    "Cs.Async.handler_called",
    "Cs.Async.handler_called_once_partial",
    "Cs.Async.handler_called_twice"
   ],
   "note": "At least once in every interleaving; the code violates 'once': set_result and when_ready can both call the handler (handler_called_twice, an interleaving). Proved to be once when the registration ends before the completion starts or the other way round."
  },
  {
   "property": "C51",
   "status": "partial",
   "theorems": [
    "Cs.Async.get_not_stuck",
    "Cs.Async.get_returns_result_partial",
    "Cs.Async.get_returns_unset",
    "Cs.Async.throwing_handler_blocks_get",
    "Cs.Async.get_from_handler_unset"
   ],
   "note": "No getter is left blocked, for any number of getters, unless the handler throws (throwing_handler_blocks_get); without spurious wake-ups the value returned is the one set. The code violates the second half after a spurious wake-up and for a get() inside the handler."
  },
  {
   "property": "C54",
   "status": "partial",
   "theorems": [
    "Cs.Commit.committed_applied_partial",
    "Cs.Commit.wakeup_lost",
    "Cs.Commit.next_commit_wakes"
   ],
   "note": "The code violates it: the notification is lost when the commit thread is between its test and its wait (wakeup_lost; nothing but a further notification or a spurious wake-up helps). Proved: in executions in which this does not happen every committed entry is applied, and the next raise of the commit index repairs it."
  },
  {
   "property": "C59",
   "status": "partial",
   "theorems": [
    "Cs.Commit.destructor_returns_partial",
    "Cs.Commit.destructor_hangs",
    "Cs.Commit.destructor_deadlock",
    "Cs.Commit.destructor_misses_end",
    "Cs.Commit.destructor_returns_early"
   ],
   "note": "The code violates it in four ways, each shown by an execution. Proved: in every fair execution without spurious wake-ups it returns if the commit thread waits, or is about to return from its wait, when the destructor notifies it."
  },
  {
   "property": "C55",
   "status": "partial",
   "theorems": [
    "Cs.Timer.cancelled_not_executed_partial",
    "Cs.Timer.old_schedule_not_executed_partial",
    "Cs.Timer.executed_once",
    "Cs.Timer.cancelled_task_executes",
    "Cs.Timer.old_expiry_executes"
   ],
   "note": "The code violates both halves, each shown by an interleaving: a worker thread that has passed the test of the flag executes the task after cancel() has returned, and an expiry that is queued when the timer is cancelled executes the task after it has been scheduled again. Proved: these are the only ways, for any number of schedules; and no schedule executes the task twice. That a late expiry of the election timer ends the process of a leader is C45's shutdown_late_timer."
  },
  {
   "property": "C62",
   "status": "partial",
   "theorems": [
    "Cs.Service.exceptions_end_workers",
    "Cs.Service.service_dies",
    "Cs.Service.workers_stay_partial"
   ],
   "note": "The code violates it in every execution: the number of exceptions and the number of live threads add up to the number of threads at the start. After as many exceptions nothing is handled any more."
  },
  {
   "property": "C64",
   "status": "partial",
   "theorems": [
    "Cs.Service.stop_returns_partial",
    "Cs.Service.stop_hangs",
    "Cs.Service.stop_hangs_without_workers"
   ],
   "note": "The code violates it: the notification is lost if the loggers are flushed before the caller waits (for any number of worker threads), and there is none if all worker threads have ended (C62). Proved: it returns in every fair execution in which the flush is still to come when the caller waits."
  },
  {
   "property": "C58",
   "status": "partial",
   "theorems": [
    "Cs.Raft.replicate_log_as_leader_partial",
    "Cs.Raft.call_alone",
    "Cs.Raft.follower_appends",
    "Cs.Raft.older_term_appended",
    "Cs.Raft.append_of_own_term_kills"
   ],
   "note": "The code violates it: replicate_log tests the role without the lock, so other inputs can be handled between the test and the append. Shown by executions: a follower appends the entry to its own log, the entry is appended under a later term than the one tested. Proved: without interference, or as long as the term has not changed in between and no invitation to join was handled, the entry is appended by a leader of that term."
  },
  {
   "property": "C65",
   "status": "partial",
   "theorems": [
    "Cs.Raft.leader_stays_partial",
    "Cs.Raft.join_deposes_leader"
   ],
   "note": "The code violates it: an invitation to join makes a leader a follower of its own term. Proved for all other inputs."
  },
  {
   "property": "C53",
   "status": "partial",
   "theorems": [
    "Cs.Raft.one_request_partial",
    "Cs.Raft.marked_not_asked",
    "Cs.Raft.requests_bounded",
    "Cs.Raft.two_requests_outstanding"
   ],
   "note": "The code violates it: a server that becomes leader again clears the marks, so a request of its earlier leadership and a new one are outstanding at the same time. Proved: for all histories without a further election, at most one; with elections, the number outstanding is bounded by the number of elections. Requests to a server that is joining or has been removed are not counted."
  },
  {
   "property": "C66",
   "status": "partial",
   "theorems": [
    "Cs.Client.handler_called_once",
    "Cs.Client.request_ends_partial",
    "Cs.Client.request_without_outcome"
   ],
   "note": "At most once, in every interleaving, and exactly once for every request that is done. The code violates 'at least once': a request that is completed late reads the answer to another one from a new connection, and the handler of that one is never called. Proved for requests that are sent one at a time: the handler is called after at most seven steps."
  },
  {
   "property": "C67",
   "status": "partial",
   "theorems": [
    "Cs.Client.answer_matches_partial",
    "Cs.Client.answer_of_another"
   ],
   "note": "The code violates it: answers are matched with requests by the order in which the completions of the writes are handled, which need not be the order of the writes. Proved for requests that are sent one at a time."
  },
  {
   "property": "C68",
   "status": "partial",
   "theorems": [
    "Cs.Client.one_failure_partial",
    "Cs.Client.next_request_fails",
    "Cs.Client.two_requests_one_fails"
   ],
   "note": "The code violates it: after a failed connect the socket stays open, and the next request fails although the server is there; of two requests sent before there is a connection one can fail. Proved for requests that are sent one at a time: at most one more request fails."
  },
  {
   "property": "C69",
   "status": "partial",
   "theorems": [
    "Cs.Rpc.client_for_matching",
    "Cs.Rpc.legal_host_partial",
    "Cs.Rpc.hyphen_refused"
   ],
   "note": "create_client accepts exactly the language of its regular expression. The code violates the property: host names with a hyphen in the last label (tcp://node-1:9000) are refused. Proved for all other host names of RFC 1123."
  },
  {
   "property": "C70",
   "status": "proved",
   "theorems": [
    "Cs.Raft.append_entries_now",
    "Cs.Raft.append_entries_forwarded"
   ],
   "note": "A call as one step, for every state. That the answer the client hands over is the one to this request is C67."
  },
  {
   "property": "C71",
   "status": "partial",
   "theorems": [
    "Cs.Raft.forwarded_to_leader_partial",
    "Cs.Raft.forwarded_to_old_address",
    "Cs.Raft.never_forwarded"
   ],
   "note": "The code violates it: the client made for a leader is kept for ever, also if the leader has another address by now, and also if it is a null pointer because the first address was not legal. Proved for all histories in which the member keeps its address."
  },
  {
   "property": "C72",
   "status": "partial",
   "theorems": [
    "Cs.Raft.sent_to_configured_address_partial",
    "Cs.Raft.sent_to_old_address"
   ],
   "note": "The code violates it: a peer keeps the address it was made with if its id is in the old and in the new configuration, as after a snapshot. Proved for all histories in which the descriptions that reach the server give each id one address."
  },
  {
   "property": "C73",
   "status": "partial",
   "theorems": [
    "Cs.Raft.legal_addresses_partial",
    "Cs.Raft.illegal_address_crashes"
   ],
   "note": "The code violates it: add_srv with an address that create_client refuses makes the leader call through a null pointer. Proved: if all addresses that reach a server are legal it never does, and the addresses it hands on are legal."
  },
  {
   "property": "C74",
   "status": "partial",
   "theorems": [
    "Cs.Raft.new_server_gets_log_partial",
    "Cs.Raft.own_entries_applied",
    "Cs.Raft.former_member_stuck"
   ],
   "note": "The code violates it: a server that has a log keeps and applies its own entries; a server that has been a member before refuses packs after the configuration it was in, and the leader then raises an exception. Proved if the new server has no log and no configuration in the log of the leader has its id, and the leader has its whole log."
  },
  {
   "property": "C75",
   "status": "partial",
   "theorems": [
    "Cs.Raft.unreachable_removed_partial",
    "Cs.Raft.unreachable_given_up_partial",
    "Cs.Raft.unreachable_stays"
   ],
   "note": "Proved for a positive back-off, with the bound; nothing else happens between the failures. With a back-off of zero or less the leader goes on for ever."
  },
  {
   "property": "C76",
   "status": "proved",
   "theorems": [
    "Cs.Raft.leaver_ends"
   ],
   "note": "While the server is catching up the timer is not set again; then the second timeout does not come."
  },
  {
   "property": "C77",
   "status": "partial",
   "theorems": [
    "Cs.Raft.stays_member_partial",
    "Cs.Raft.member_leaves"
   ],
   "note": "The code violates it: a server that is asked to leave by a leader that then crashes takes itself out although it has not been removed. Proved for servers that have not been asked to leave."
  },
  {
   "property": "C78",
   "status": "proved",
   "theorems": [
    "Cs.Raft.add_srv_now",
    "Cs.Raft.add_srv_forwarded",
    "Cs.Raft.remove_srv_now",
    "Cs.Raft.remove_srv_forwarded"
   ],
   "note": "True means that the change has begun; the leader may still give up (C75)."
  },
  {
   "property": "C79",
   "status": "partial",
   "theorems": [
    "Cs.Raft.member_catches_up_partial",
    "Cs.Raft.cluster_member_catches_up_partial"
   ],
   "note": "Proved for logs that have not been compacted, and between the messages nothing else changes the log or the term of the member. In the cluster model (no compaction, no changes of the configuration) all hypotheses about the logs hold at any time; see C45 for the unusual inputs that are excluded."
  },
  {
   "property": "C80",
   "status": "partial",
   "theorems": [
    "Cs.Raft.commit_is_announced_partial",
    "Cs.Raft.replicated_not_announced",
    "Cs.Raft.restarted_not_announced"
   ],
   "note": "The code violates it: replicate_log appends without pre_commit; after a crash entries of the log are committed that were never announced; the entries of a pack that a joining server gets are not announced either. Proved for servers that keep running, without packs and replicate_log, for all indexes behind the log of the beginning."
  },
  {
   "property": "C81",
   "status": "partial",
   "theorems": [
    "Cs.Raft.announced_is_settled_partial",
    "Cs.Raft.overwritten_not_rolled_back"
   ],
   "note": "The code violates it: write_at cuts off the rest of the log, so the loop that rolls back ends after the first entry, and the other commands that are lost are not rolled back. Proved if nothing unsettled lies behind an entry that is overwritten."
  },
  {
   "property": "C82",
   "status": "partial",
   "theorems": [
    "Cs.Raft.change_waits_partial",
    "Cs.Raft.given_up_forgets_change",
    "Cs.Raft.third_change_accepted"
   ],
   "note": "The code violates it: giving up a new server resets the flag although another change is pending, and applying the first of two configurations resets it although the second waits. Proved for all histories without these, i.e. where at most one configuration waits at a time and no invitation fails, for servers that are not about to join."
  },
  {
   "property": "C83",
   "status": "partial",
   "theorems": [
    "Cs.Raft.only_leader_adds_partial",
    "Cs.Raft.late_answer_appends",
    "Cs.Raft.late_answer_hides_command"
   ],
   "note": "The code violates it: the answer of a server that was asked to leave makes any server append a configuration, also if it is no leader any more, with the term of the present leader. That leader's command with the same index and term is then taken for the same entry and is lost. Proved for all other inputs, and for such answers and failures if they find the server as leader."
  },
  {
   "property": "C84",
   "status": "partial",
   "theorems": [
    "Cs.Raft.change_accepted_partial",
    "Cs.Raft.cut_change_blocks",
    "Cs.Raft.covered_change_blocks"
   ],
   "note": "The code violates it: when a configuration that waits is cut off behind an overwritten entry, or is covered by a snapshot that is installed, the flag remains set, and the server, once leader, refuses all changes until it is restarted. Proved for servers that have been running since they were started, if none of these happens."
  },
  {
   "property": "C85",
   "status": "partial",
   "theorems": [
    "Cs.Share.sent_whole_partial",
    "Cs.Share.read_whole_partial",
    "Cs.Share.given_from_file_partial",
    "Cs.Share.given_whole_partial",
    "Cs.Share.commit_given_rest",
    "Cs.Share.read_twice",
    "Cs.Share.sent_broken",
    "Cs.Share.sent_shifted",
    "Cs.Share.conf_read_again"
   ],
   "note": "The code violates it: commit passes the shared buffer without rewinding it, so a state machine that read the command in pre_commit gets an empty rest in commit unless the entry was sent or dropped from the cache meanwhile (commit_given_rest); an entry sent while it is committed is read twice (read_twice) or arrives shifted, with foreign memory at its end (sent_broken, sent_shifted). Proved for all interleavings: state machines that never move the position are always given the whole command; those that rewind it themselves read it correctly unless the entry is sent meanwhile; requests carry the command if no call uses the buffer between rewinding and copying."
  },
  {
   "property": "C86",
   "status": "partial",
   "theorems": [
    "Cs.LogStore.cookie_kept_partial",
    "Cs.LogStore.cookie_lost"
   ],
   "note": "Violated by the code: compaction (after every snapshot), applying a pack and reopening fill the cache with objects read from the files, which carry no cookie, and a bounded cache forgets the oldest ones (cookie_lost). Proved for every reachable store: as long as only entries are appended and read, the cookie is returned exactly while fewer entries than the cache holds were appended since."
  },
  {
   "property": "C87",
   "status": "partial",
   "theorems": [
    "Cs.Link.sent_received_partial",
    "Cs.Link.server_sent_received_partial",
    "Cs.Link.answer_received",
    "Cs.Link.block_cut",
    "Cs.Link.block_lost"
   ],
   "note": "Violated by the code for snapshot blocks: the request is made from the bytes behind the position at which read_snapshot_data left the buffer, so a state machine that fills it with put sends empty blocks (block_lost); the interface does not say where to leave it. Proved for all other requests (and blocks left at their start) whose numbers fit and which take at most 16 MiB."
  },
  {
   "property": "C88",
   "status": "partial",
   "theorems": [
    "Cs.Link.batch_received_partial",
    "Cs.Link.batch_refused",
    "Cs.Link.oversize_refused",
    "Cs.Raft.sends_again"
   ],
   "note": "Violated by the code: two commands of 9 MiB are accepted and sent in one request, on which every session closes the connection, and however often this happens the leader sends the same entries again (batch_refused, sends_again). Proved: if the parameter for the number of entries times the size of the largest entry stays below the limit, requests are received as they were sent."
  },
  {
   "property": "C89",
   "status": "partial",
   "theorems": [
    "Cs.Raft.timer_runs_partial",
    "Cs.Raft.timer_runs_default",
    "Cs.Raft.timeout_stands",
    "Cs.Raft.last_refusal_restarts",
    "Cs.Raft.asks_once",
    "Cs.Raft.joined_without_timer",
    "Cs.Raft.no_leader_ever"
   ],
   "note": "Violated by the code with pre-votes enabled: a round of pre-votes in which one member does not answer is never ended, and until then the timer is off (asks_once); a cluster of three whose leader is down can get to a state in which the two others never elect a leader nor send anything again (no_leader_ever). Also violated by a server that has just joined (joined_without_timer). Proved: in histories without invitations to join, a server that is no leader has its timer running or has an open round of pre-votes; without pre-votes (the default) the timer always runs; its expiry makes the server ask all others for their votes."
  },
  {
   "property": "C90",
   "status": "partial",
   "theorems": [
    "Cs.Apply.calls_in_order_partial",
    "Cs.Apply.all_applied_partial",
    "Cs.Apply.calls_in_order_without_snapshots",
    "Cs.Apply.snapshot_during_commit",
    "Cs.Apply.command_after_snapshot",
    "Cs.Apply.command_with_other_index",
    "Cs.Apply.uncommitted_command",
    "Cs.Apply.snapshot_ends_process"
   ],
   "note": "Violated by the code when a snapshot is received while the commit thread is at work; five schedules: apply_snapshot runs during commit; a command of the snapshot is committed after it; a command is committed with the index of another; an entry that is not committed is given to the state machine; the process ends. Proved for all schedules of servers that receive no snapshot, and in general for schedules in which the commit thread rests while a snapshot is installed."
  },
  {
   "property": "C91",
   "status": "partial",
   "theorems": [
    "Cs.Raft.one_leader_per_term_with_snapshots",
    "Cs.Raft.leaders_of_a_term_with_snapshots",
    "Cs.Raft.snapshot_loses_committed_entry",
    "Cs.Raft.snapshot_makes_commands_differ",
    "Cs.Raft.one_sender_per_term_compacted_partial",
    "Cs.Raft.log_matching_compacted_partial",
    "Cs.Raft.leader_append_only_compacted_partial",
    "Cs.Raft.leader_completeness_compacted_partial",
    "Cs.Raft.applied_same_term_compacted_partial",
    "Cs.Raft.state_machine_safety_compacted_partial",
    "Cs.Raft.log_not_empty_partial",
    "Cs.Raft.waiting_suffices_partial",
    "Cs.Raft.state_machine_safety_waiting_partial",
    "Cs.Raft.state_machine_safety_timely_compacted_partial"
   ],
   "note": "Election safety is proved for all clusters with fixed members, with snapshots. The rest is violated: last_entry() of a log without entries has term 0, so a voter that has cut its whole log grants its vote to a candidate that lacks committed entries (raft_server_req_handlers.cxx 196-198); a committed and applied command is then replaced by another one at the same index. Both are proved with one execution of three servers with snapshot distance 1 and no reserved entries. For clusters that keep at least one entry behind a snapshot (reserved_log_items not 0) and whose servers never need the snapshot of another one, log matching, leader completeness and state machine safety (the latter under the conditions of C44) are proved for the entries still in the logs; what is not in a log is covered by a snapshot of the server. In these executions a snapshot is reported as finished only while the entry it ends with is in the log; waiting_suffices_partial derives this, under the conditions of C44, from the server waiting for the snapshot; state_machine_safety_timely_compacted_partial also derives the majorities from the answers, as C44 does. Missing: servers that install snapshots of others."
  },
  {
   "property": "C92",
   "status": "partial",
   "theorems": [
    "Cs.Logger.file_is_beginning",
    "Cs.Logger.stop_writes_all_partial",
    "Cs.Logger.later_lines_not_written",
    "Cs.Logger.stop_returns_too_early"
   ],
   "note": "The order of lines is proved for all interleavings, and that all lines are written once stop is under way and the flush handlers have finished. Violated by the code: after the first flush the timer is set to 1000 hours, so later_lines_not_written shows for every execution without stop that nothing logged after the first second is in the file for 1000 hours (errors logged before ::exit are lost); and stop may be woken by a handler that took the lines before the last ones were logged. Not modelled: the destructor of a logger, which flushes too, and errors of the stream."
  },
  {
   "property": "C93",
   "status": "partial",
   "theorems": [
    "Cs.Listener.requests_in_turn",
    "Cs.Listener.request_answered",
    "Cs.Listener.connection_accepted",
    "Cs.Listener.no_sessions_after_stop",
    "Cs.Listener.served_after_stop"
   ],
   "note": "Violated by the code in the last part: stop only closes the acceptor, and the list of active sessions is never filled, so every connection that is open is served on (served_after_stop, for all states). The rest is proved for all executions. Requests are numbers with a size and good or bad data; C10-C13 have their bytes."
  },
  {
   "property": "C94",
   "status": "partial",
   "theorems": [
    "Cs.Raft.electors_disjoint_partial",
    "Cs.Raft.one_leader_while_few_leave_partial",
    "Cs.Raft.added_servers_split_cluster",
    "Cs.Raft.removed_server_splits_cluster"
   ],
   "note": "The code violates it. A configuration takes effect when the commit thread of a server has applied it: after servers 4 and 5 have been added to three servers, one server still has a majority in the first configuration (added_servers_split_cluster); and votes of a server that is removed during the election count (removed_server_splits_cluster: one removal suffices). In both cases two leaders of one term commit different commands at the same index. Proved: when nobody is invited, two leaders of one term have been elected by disjoint sets of servers, each more than half of a configuration, hence there is one leader if the configurations are large enough (none removed, or one of an odd number)."
  },
  {
   "property": "C95",
   "status": "proved",
   "theorems": [
    "Cs.Locks.no_deadlock",
    "Cs.Locks.all_finish"
   ],
   "note": "mutexes only: waiting for the answer of another server, for a result (C51) or for the commit thread (C54, C59) is not included; user code is taken to return and to use no other mutexes"
  },
  {
   "property": "C96",
   "status": "partial",
   "theorems": [
    "Cs.Locks.taken_again_partial",
    "Cs.Locks.shares_twice"
   ],
   "note": "violated: winning an election shares peers_lock_ again while it is shared. Proved: this mutex, shared both times and with lock_ taken, is the only case"
  },
  {
   "property": "C97",
   "status": "partial",
   "theorems": [
    "Cs.Locks.not_raced_partial",
    "Cs.Locks.raced_members"
   ],
   "note": "violated for six members, among them the pointers to the configuration and to the last snapshot; proved for the set of members, the server that joins, votes, prevotes, flags of membership changes, the election timer, the progress of members, the table of clients and the log store"
  },
  {
   "property": "C98",
   "status": "partial",
   "theorems": [
    "Cs.LogStore.Io.C98_not_restored",
    "Cs.LogStore.Io.C98_noBackup_partial",
    "Cs.LogStore.Io.C98_range_partial",
    "Cs.LogStore.Io.C98_kept_partial"
   ],
   "note": "violated for every store: if a call fails that changes the files and every call of the restoring code works, all entries are lost and the backup of the data is emptied. Proved: nothing is lost when a backup cannot be opened or the index is too small, and the files are kept when the data file cannot be removed"
  },
  {
   "property": "C99",
   "status": "partial",
   "theorems": [
    "Cs.LogStore.Io.C99_success_partial",
    "Cs.LogStore.Io.C99_returns_partial",
    "Cs.LogStore.Io.C99_not_whole"
   ],
   "note": "violated when there is no room for the backup of the data: compact returns true and the kept entries are replaced by removed ones. Proved for every set of failing calls when there is room"
  },
  {
   "property": "C100",
   "status": "partial",
   "theorems": [
    "Cs.Raft.peer_exists_partial",
    "Cs.Raft.removed_peer_lost",
    "Cs.Raft.removed_while_asked",
    "Cs.Raft.joinee_lost",
    "Cs.Raft.joinee_lost_while_asked"
   ],
   "note": "violated: applying a configuration frees the peers that are not in it whatever requests are outstanding, and a higher term frees the peer of the server that is to join. Proved: the peer of a member exists while no configuration without it is put into force and it is not removed for not answering"
  },
  {
   "property": "C101",
   "status": "partial",
   "theorems": [
    "Cs.Raft.majority_progress_partial",
    "Cs.Raft.recovery_possible_partial"
   ],
   "note": "proved for clusters without pre-votes (with them it is false, C89), compaction, snapshots and changes of the configuration, for logs that have not got to the end of the 64-bit numbers, and (for the last step, applying) if the state machine has not applied more than its log has; not all servers of the majority may be leaders, unless they are restarted. That the execution is possible is proved, not that a scheduler chooses it"
  },
  {
   "property": "C102",
   "status": "partial",
   "theorems": [
    "Cs.Raft.settings_kept",
    "Cs.Raft.heartbeats_in_time_partial",
    "Cs.Raft.timeout_undefined",
    "Cs.Raft.heartbeats_late",
    "Cs.Raft.arithmetic_defined_partial",
    "Cs.Raft.silence_undefined",
    "Cs.Raft.backoff_defined_partial",
    "Cs.Raft.backoff_undefined",
    "Cs.Raft.sizes_respected_partial",
    "Cs.Raft.endIdx_model",
    "Cs.Raft.negative_size",
    "Cs.Raft.nothing_committed",
    "Cs.Raft.negative_batch",
    "Cs.Raft.unusable_batch",
    "Cs.Raft.uncommitted_committed",
    "Cs.LogStore.pack_negative_all",
    "Cs.LogStore.pack_negative_throws",
    "Cs.LogStore.pack_zero_throws"
   ],
   "note": "the code violates it, nothing checks the values: a lower bound above the upper one makes the random timeout undefined (timeout_undefined), an interval not below the lower bound makes heartbeats late in every history (heartbeats_late), an upper bound of 2^30 or more overflows in is_leader (silence_undefined), a negative max_append_size gives empty requests once a member has that many entries (negative_size), and with max_append_size 0 a cluster of two or more servers commits nothing in any execution (nothing_committed); a negative log_sync_batch_size sends a joining server the whole rest of the log, and that server commits entries that nobody has committed (negative_batch, uncommitted_committed, pack_negative_all), or throws, as 0 does (unusable_batch, pack_negative_throws, pack_zero_throws). Proved for the rest: times in order (interval at least 2 ms), numbers below 2^30, max_append_size, log_sync_batch_size and log_sync_stop_gap not negative; requests that are sent again are assumed to be of the permitted size. That such a cluster can commit is C101"
  },
  {
   "property": "C103",
   "status": "partial",
   "theorems": [
    "Cs.Text.message_fits",
    "Cs.Text.message_whole_partial",
    "Cs.Text.message_undefined",
    "Cs.Text.message_cut",
    "Cs.Text.term_negative",
    "Cs.Raft.no_snapshot_undefined"
   ],
   "note": "the code violates it at 14 of the 73 places: five pass a size_t for %d, one of them in front of every line of the log (message_undefined; undefined by the standard, on common 64-bit platforms the low half of the number is shown); eight lose their end for large numbers or long texts (message_cut); one shows terms from 2^63 on as negative (term_negative). The message about a missing snapshot uses the null pointer (no_snapshot_undefined). Proved for the other 59, for all values. uint64_t is counted as unsigned long long; message types outside the table of names are not part of this; that the table of places is complete and its types right was checked by a script and by reading, not proved. One message is written without formatting and shows the two characters %d for the number (src/raft_server_resp_handlers.cxx:255)"
  },
  {
   "property": "C104",
   "status": "partial",
   "theorems": [
    "Cs.Raft.blocks_read_partial",
    "Cs.Raft.short_read_exits",
    "Cs.Raft.failed_read_sent",
    "Cs.Raft.unread_snapshot_applied",
    "Cs.Raft.moved_block_empty",
    "Cs.Raft.empty_blocks_forever"
   ],
   "note": "the code violates it: the number returned is compared as a size_t, so a negative one counts as success; the block is sent with what is in the memory (failed_read_sent), and the member applies it (unread_snapshot_applied). A state machine that fills the buffer with its put functions and leaves the position behind the bytes sends empty blocks (moved_block_empty), without end if the snapshot has several (empty_blocks_forever). Proved for all histories if the state machine returns no negative number and leaves the position at the start (blocks_read_partial); a number that is too small ends the process (short_read_exits). Exceptions of read_snapshot_data are not modelled"
  },
  {
   "property": "C105",
   "status": "partial",
   "theorems": [
    "Cs.Raft.left_server_quiet_partial",
    "Cs.Raft.removed_server_stays",
    "Cs.Raft.removed_server_stands",
    "Cs.Raft.removed_server_disturbs",
    "Cs.Raft.refused_command_skipped",
    "Cs.Raft.null_request_used",
    "Cs.Raft.wrong_term_used",
    "Cs.Raft.no_term_undefined",
    "Cs.Raft.snapshot_stuck",
    "Cs.Raft.apply_same",
    "Cs.Raft.timeout_same"
   ],
   "note": "the code violates it: nine of the 20 calls are followed by ::exit, the others are not. A server that applies the configuration it has been removed by stays as it was (removed_server_stays), asks for votes when its timer expires (removed_server_stands), and deposes the leader of the cluster it has left (removed_server_disturbs). A command the state machine refuses is counted as applied and the next one is applied (refused_command_skipped). A request for which no snapshot is at hand is used as a null pointer (null_request_used), the term of another index is taken for the one asked (wrong_term_used), a missing snapshot is used (no_term_undefined), and no snapshot is ever made again (snapshot_stuck). Proved in full for the one case the code treats right: the server that has agreed to leave sends nothing and its timer stays off (left_server_quiet_partial). apply_same and timeout_same: without such a call this model and the main one agree. Not modelled: handle_snapshot_sync_req after reconfigure has returned early, and answers to requests after term_for_log has returned"
  },
  {
   "property": "C106",
   "status": "partial",
   "theorems": [
    "Cs.Raft.leader_was_announced",
    "Cs.Raft.listener_knows_leader_partial",
    "Cs.Raft.listener_knows_leader_without_prevote_partial",
    "Cs.Raft.invited_leader_is_silent",
    "Cs.Raft.elected_during_prevote_is_silent"
   ],
   "note": "the code violates it: a leader that accepts an invitation to join becomes a follower and tells nothing (invited_leader_is_silent). One direction holds without conditions: a server that leads has told so last (leader_was_announced). The other direction is proved for servers that are not invited, without pre-votes (listener_knows_leader_without_prevote_partial), and with pre-votes if no vote is counted while a pre-vote of the server is open (listener_knows_leader_partial); without that condition it fails (elected_during_prevote_is_silent), but only if two servers are leaders of the same term. The event logs_catch_up is not modelled."
  },
  {
   "property": "C107",
   "status": "partial",
   "theorems": [
    "Cs.PeerTimer.removed_peer_not_used_partial",
    "Cs.PeerTimer.late_heartbeat_was_waiting",
    "Cs.PeerTimer.late_heartbeat_uses_freed_peer"
   ],
   "note": "The code violates it, by an interleaving: a worker thread has passed the test of the flag and waits for the lock of the server while the thread that holds the lock removes the member and destroys it. Proved: that is the only way, for any number of heartbeats; if no heartbeat waits for the lock when a member is removed, the peer is never used after its end. One member; the memory of the task itself is kept by the wait."
  },
  {
   "property": "C108",
   "status": "proved",
   "theorems": [
    "Cs.Buffer.copy_has_rest",
    "Cs.Buffer.stream_put_exact",
    "Cs.Buffer.stream_get_exact",
    "Cs.Buffer.stream_round_trip"
   ],
   "note": "A short read overwrites part of the buffer before it throws; what the buffer holds then is not stated."
  },
  {
   "property": "C109",
   "status": "partial",
   "theorems": [
    "Cs.Codec.decoding_harmless_partial",
    "Cs.Codec.lacking_server_undefined",
    "Cs.LogStore.applying_pack_harmless_partial",
    "Cs.LogStore.overstating_pack_undefined"
   ],
   "note": "The code violates it. For servers, configurations, snapshots and blocks the harmful payloads are characterised exactly: the bytes of some server begin with an id and then have no address (empty, or not ended); each of them does harm (lacking_server_undefined), all others do not (decoding_harmless_partial). Log entries are always harmless. For packs: a negative length or more bytes announced than there are; negative lengths always do harm, too large ones in a concrete case."
  },
  {
   "property": "C110",
   "status": "partial",
   "theorems": [
    "Cs.Raft.unasked_server_alone_partial",
    "Cs.Raft.asked_server_alone_partial",
    "Cs.Raft.majority_found_for_all",
    "Cs.Raft.borrowed_majority"
   ],
   "note": "The code violates it: is_leader keeps what it found in a function-local static variable, one for the process. Once any server has found a majority, no server of the process, also one started later, looks at the answers of its members again (majority_found_for_all); a leader whose members are all silent, asked for the first time, says that it leads, although alone it says the contrary (borrowed_majority). Proved: a server that gets no requests of clients and no replicate_log has exactly a history of its own, whatever the others do; and so has a server that is asked if no other one is. Not modelled: the process ends if one server calls exit; data races on the variable."
  },
  {
   "property": "C111",
   "status": "partial",
   "theorems": [
    "Cs.LogStore.failed_append_unseen_partial",
    "Cs.LogStore.failed_append_seen",
    "Cs.LogStore.failed_append_reopened",
    "Cs.LogStore.failed_append_nothing_written"
   ],
   "note": "The code violates it. The entry is put into the cache and counted before the streams are flushed, and a failed flush ends the call by an exception without taking this back: the store then shows an entry that is not in the files, no entry can be appended after it, and it is gone when the store is opened again. If the data file is the one that is full, the position of the entry stays in the index file, so the store cannot be opened again, or shows the entry with a part of its payload. Proved: if the failure is noticed when the bytes are given to the streams, the store shows the log as it was as far as it is in the cache; and if nothing has been written it shows it after it is opened again."
  },
  {
   "property": "C112",
   "status": "partial",
   "theorems": [
    "Cs.LogStore.whole_calls_in_turn",
    "Cs.LogStore.gentle_calls_in_turn_partial",
    "Cs.LogStore.entry_lost_by_compact",
    "Cs.LogStore.range_read_outside",
    "Cs.LogStore.entry_lost_by_append",
    "Cs.LogStore.last_entry_missing",
    "Cs.LogStore.term_lost_by_append"
   ],
   "note": "The code violates it: last_entry, and parts of entry_at, term_at and log_entries, use the cache without the mutex of the store. entry_at of the last entry during compact, or of the entry being appended, ends by an exception and leaves the index stream unusable, so that no entry can be appended any more (entry_lost_by_compact, entry_lost_by_append); log_entries during compact reads outside of a vector (range_read_outside); last_entry during write_at answers that the log is empty (last_entry_missing); term_at during append answers 0 for an existing entry if the cache is limited (term_lost_by_append). Proved for all executions: the functions that hold the mutex throughout take effect one after the other on any store (whole_calls_in_turn); threads that append and read entries that exist, term_at and log_entries only with the default cache, see the ideal log (gentle_calls_in_turn_partial). Missing in the positive part: reading while others call write_at, compact or apply_pack, for which it is false."
  },
  {
   "property": "C113",
   "status": "partial",
   "theorems": [
    "Cs.Raft.only_leader_sends_at_once_partial",
    "Cs.Raft.only_leader_sends_partial",
    "Cs.Raft.late_answer_sends",
    "Cs.Raft.sender_was_elected",
    "Cs.Raft.one_sender_with_snapshots",
    "Cs.Raft.leader_hears_no_rival"
   ],
   "note": "The code violates it for membership changes: when the answer of a server that was asked to leave arrives after the server that asked has lost the lead, it appends the removal and sends it to the others in append requests with the term of the present leader, although it never was leader of this term (late_answer_sends). Proved for all histories with crashes and restarts in which answers to the requests of a membership change find their sender leading: the lead of the term was taken before (only_leader_sends_partial), and for each handler in any state (only_leader_sends_at_once_partial). Proved without this restriction for clusters with fixed members, any settings, pre-votes and snapshots: sender_was_elected, one_sender_with_snapshots, and that the exits \"there must be a bug\" of a leader that hears another leader of its term are never reached by requests of other servers (leader_hears_no_rival)."
  },
  {
   "property": "C114",
   "status": "partial",
   "theorems": [
    "Cs.LogStore.write_effects",
    "Cs.LogStore.write_crash_partial",
    "Cs.LogStore.write_crash_forges",
    "Cs.LogStore.write_crash_extends",
    "Cs.LogStore.write_crash_at_end"
   ],
   "note": "The code violates it: the entry is written over the old ones before the files are cut off, so after a crash the old positions cut the new bytes. An entry can be chosen such that the next index shows any given entry, with any term and type, that nobody has given to the store (write_crash_forges); the payload is what a client has sent. Between the two cuts the entry has the rest of the old data behind its payload (write_crash_extends). Proved for every moment: the store can be opened again, its first index and the entries before the overwritten one are intact, the number of entries is the one before or after, and exactly what is shown from the overwritten index on (write_crash_partial). A write_at at the end of the log has the effects of append, see C21 (write_crash_at_end)."
  },
  {
   "property": "C115",
   "status": "partial",
   "theorems": [
    "Cs.LogStore.writeAtF_none",
    "Cs.LogStore.failed_write_unseen_partial",
    "Cs.LogStore.failed_write_seen",
    "Cs.LogStore.failed_write_files",
    "Cs.LogStore.failed_write_reopened_partial",
    "Cs.LogStore.failed_write_forges"
   ],
   "note": "The code violates it. If a flush fails and nothing was to be cut off, or it was the flush of the index file, the call ends by an exception after the store has taken over the entry: it shows the log after the call (failed_write_seen). If the files cannot be cut off, the store shows the old log as long as it runs but its streams stay closed, and when it is opened again the old positions cut the new bytes, so that it may show an entry nobody has given to it (failed_write_forges). Proved: in all cases in which a write or a cut fails (also because of a failed flush of the data file, whose length is then -1) the store goes on showing the log as it was, as far as it is in the cache (failed_write_unseen_partial); the files are those of a crash at a certain moment (failed_write_files, see C114); and if not even the position could be written the log is intact when it is opened again (failed_write_reopened_partial)."
  },
  {
   "property": "C116",
   "status": "partial",
   "theorems": [
    "Cs.Commit.report_was_true_partial",
    "Cs.Commit.caught_up_when_told_partial",
    "Cs.Commit.waiting_has_told",
    "Cs.Commit.told_with_entries_missing",
    "Cs.Commit.told_too_late",
    "Cs.Commit.told_at_start",
    "Cs.Raft.reports_iff",
    "Cs.Raft.behind_reports"
   ],
   "note": "The code violates it: a follower that is several requests behind reports although it knows of committed entries that it has not got (told_with_entries_missing, and as a history of a server behind_reports); when a commit arrives between the test and the call, the report is made before the entry is applied, and the thread may then wait with it (told_too_late, see C54). Each server reports as soon as it is started (told_at_start). Proved: if no handler comes in between and the server has the entries it knows to be committed, the report is true (caught_up_when_told_partial); in all executions there was a moment before the report, with the same entries applied, at which all entries of the log or all entries known to be committed were applied (report_was_true_partial); and a commit thread that waits has reported since it applied the last entry (waiting_has_told)."
  },
  {
   "property": "C117",
   "status": "partial",
   "theorems": [
    "Cs.LogStore.pack_effects",
    "Cs.LogStore.pack_crash_partial",
    "Cs.LogStore.pack_crash_whole",
    "Cs.LogStore.pack_crash_extends",
    "Cs.LogStore.pack_crash_not_openable",
    "Cs.LogStore.pack_crash_cuts"
   ],
   "note": "The code violates it: if data reaches the disk before the positions, the last entry of the old log is shown with the bytes of the pack behind its payload (pack_crash_extends); if the positions reach it first, the store cannot be opened (pack_crash_not_openable) or the last entry is cut short (pack_crash_cuts). Proved: what exactly is shown, or that the store cannot be opened, for every pair of numbers of bytes (pack_crash_partial); the property holds when both files end at the same entry (pack_crash_whole). Packs that overwrite entries are not covered."
  },
  {
   "property": "C118",
   "status": "partial",
   "theorems": [
    "Cs.LogStore.failed_pack_unseen_partial",
    "Cs.LogStore.failed_pack_files",
    "Cs.LogStore.applyPackF_works",
    "Cs.LogStore.failed_pack_not_openable",
    "Cs.LogStore.failed_pack_extends",
    "Cs.LogStore.failed_pack_prefix"
   ],
   "note": "True of the running process, also for packs that replace entries: the call throws, what is in the cache is shown as before, and no further entry is taken (failed_pack_unseen_partial). The code violates it on disk: what did fit stays in the files. With positions and no data the store cannot be opened (failed_pack_not_openable); with data and no positions the last entry has the pack behind its payload (failed_pack_extends); with room for whole entries these are in the log (failed_pack_prefix). If everything fits, the call is that of the main model (applyPackF_works). What is in the files is proved for packs behind the log only (failed_pack_files)."
  },
  {
   "property": "C119",
   "status": "partial",
   "theorems": [
    "Cs.LogStore.closed_store_stays_partial",
    "Cs.LogStore.closed_compaction_loses",
    "Cs.LogStore.closed_compaction_renumbers"
   ],
   "note": "Proved for all sequences of calls other than compacting the whole log (closed_store_stays_partial). The code violates it for that one: compact opens new index and data files, and throws when it writes the start index to the closed file, so that all entries are gone and the first index has not moved (closed_compaction_loses). After that append works again: it returns the next index of the old log, and the entry has the first index of the old log when the store is opened again (closed_compaction_renumbers)."
  },
  {
   "property": "C120",
   "status": "partial",
   "theorems": [
    "Cs.Stamp.stamp_fields_known",
    "Cs.Stamp.stamp_same_second_partial",
    "Cs.Stamp.stamp_alone_partial",
    "Cs.Stamp.lines_in_order",
    "Cs.Stamp.stamp_from_future",
    "Cs.Stamp.stamp_hour_back",
    "Cs.Stamp.lines_not_in_order"
   ],
   "note": "The code violates it for calls at the same time, because std::gmtime has one result for the whole process and the milliseconds are the caller's own: a line may show a time that has not come yet (stamp_from_future), or one that is an hour back (stamp_hour_back). Proved: every field is that of the time of some call (stamp_fields_known); the time is exact for calls within one second (stamp_same_second_partial) and for a call during which no other one is in gmtime or begins (stamp_alone_partial). Calls one after another are in order (lines_in_order); calls at the same time need not be (lines_not_in_order). Undefined behaviour of the data race is not modelled."
  },
  {
   "property": "C121",
   "status": "partial",
   "theorems": [
    "Cs.Raft.block_follows_answer",
    "Cs.Raft.whole_snapshot_sent_partial",
    "Cs.Raft.whole_snapshots_sent_partial",
    "Cs.Raft.late_answer_skips_blocks"
   ],
   "note": "The code violates it: an answer is not compared with the snapshot that is being sent, nor with the term. With true answers only, a late answer about an earlier snapshot makes the leader skip blocks of the next one, and the member applies it without them (late_answer_skips_blocks, a joint history of leader and member). Proved for all histories: a block at an offset other than 0 is sent only after an answer that names this offset (block_follows_answer); if the server is sent blocks of one snapshot only and answers name the ends of blocks it was sent, then all bytes have been sent when the last block is (whole_snapshot_sent_partial); the same for any number of snapshots and servers, if the answers that are handled are about the snapshot that is being sent (whole_snapshots_sent_partial)."
  },
  {
   "property": "C122",
   "status": "partial",
   "theorems": [
    "Cs.Raft.leader_beats_partial",
    "Cs.Raft.follower_rests_partial",
    "Cs.Raft.silent_unless_leader_partial",
    "Cs.Raft.heartbeat_stopped",
    "Cs.Raft.invited_leader_beats",
    "Cs.Raft.candidate_beats"
   ],
   "note": "Proved for all histories: a leader has a running timer for each member it knows of, unless an earlier heartbeat for this member ended by an exception (leader_beats_partial); a follower that has not been invited to join has none (follower_rests_partial); and, if pre-votes are off, neither has a candidate (silent_unless_leader_partial). The code violates the rest: the timer is set again only behind the request, so an exception while the request is made stops it for good (heartbeat_stopped, a history); an invitation makes a leader a follower without stopping the timers (invited_leader_beats); and so does an answer to a pre-vote that makes a leader a candidate (candidate_beats)."
  },
  {
   "property": "C123",
   "status": "partial",
   "theorems": [
    "Cs.Raft.leader_timer_off_partial",
    "Cs.Raft.refused_prevotes_end_leader",
    "Cs.Raft.late_expiry_ends_leader"
   ],
   "note": "Proved for all histories of servers without pre-votes in which an expiry is handled only while the timer runs: the election timer of a leader does not run (leader_timer_off_partial). The code violates the rest: if pre-votes are on, a server can become leader by a late vote while it asks for pre-votes, and when these are refused it starts its election timer, whose expiry ends the process (refused_prevotes_end_leader, a history); and a task that has begun when the timer is cancelled waits for the lock and then ends a server that meanwhile has become leader (late_expiry_ends_leader)."
  }
 ]
}