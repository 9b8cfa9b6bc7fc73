/-!
# The mutexes of a server

Which mutexes the functions of a server take and which members they use while they have them. A function is a program of scopes: a
guard is a scope (include/pp_util.hxx 37-40), so whatever way a scope is left (its end, a return, an exception), the mutex is
released. Everything but mutexes and uses of members is left out; where the code decides, a program may go either way, so that a
program has every sequence of actions that the function has, and more.

The second part is an execution of any number of threads that run these programs.
-/

namespace Cs.Locks

/-- The kinds of mutexes. -/
inductive Kind where
  /-- `raft_server::lock_`, recursive, include/raft_server.hxx 144 -/
  | main
  /-- `raft_server::peers_lock_`, shared, include/raft_server.hxx 133 -/
  | peers
  /-- `peer::lock_`, one for each peer, include/peer.hxx 196 -/
  | peer
  /-- `raft_server::rpc_clients_lock_`, include/raft_server.hxx 146 -/
  | rpc
  /-- `raft_server::commit_lock_`, include/raft_server.hxx 145 -/
  | commit
  /-- `raft_server::stopping_lock_`, include/raft_server.hxx 148 -/
  | stopping
  /-- `fs_log_store::store_lock_`, recursive, include/fs_log_store.hxx 179 -/
  | store
  /-- `log_store_buffer::lock_`, shared, include/fs_log_store.hxx 82 -/
  | cache
  /-- `asio_rpc_listener::session_lock_`, src/asio_service.cxx 380 -/
  | session
  /-- `asio_service_impl::logger_list_lock_`, src/asio_service.cxx 120 -/
  | loggers
  /-- `fs_based_logger::lock_`, one for each logger, src/asio_service.cxx 97 -/
  | logger
  deriving DecidableEq, Repr

/-- `std::recursive_mutex`. -/
def Kind.recursive : Kind → Bool
  | .main | .store => true
  | _ => false

/-- There may be several mutexes of this kind. -/
def Kind.many : Kind → Bool
  | .peer | .logger => true
  | _ => false

/-- Members that threads share. -/
inductive Var where
  /-- `peers_` -/
  | members
  /-- `srv_to_join_` and `conf_to_add_` -/
  | joining
  /-- `votes_granted_`, `voted_servers_`, `election_completed_` -/
  | votes
  /-- `prevote_state_` -/
  | prevote
  /-- `steps_to_down_` -/
  | steps
  /-- `config_changing_` -/
  | changing
  /-- `catching_up_` -/
  | catching
  /-- `election_task_` -/
  | timer
  /-- `next_log_idx_`, `matched_idx_`, `snp_sync_ctx_` and `hb_enabled_` of peers -/
  | sync
  /-- `rpc_clients_` -/
  | clients
  /-- the files and counters of the log store -/
  | files
  /-- the entries that the log store keeps in memory -/
  | cached
  /-- `config_` -/
  | config
  /-- `last_snapshot_` -/
  | lastSnp
  /-- `role_`, `leader_` and `state_` -/
  | status
  /-- `quick_commit_idx_` and `sm_commit_index_` -/
  | commits
  /-- `last_resp_` of peers -/
  | lastResp
  /-- `current_hb_interval_` of peers -/
  | pace
  deriving DecidableEq, Repr

/-- Programs. -/
inductive Prog where
  | skip
  | rd (v : Var)
  | wr (v : Var)
  | seq (p q : Prog)
  | alt (p q : Prog)
  /-- any number of times -/
  | star (p : Prog)
  /-- the scope of an exclusive guard -/
  | guard (k : Kind) (p : Prog)
  /-- the scope of a shared guard -/
  | shared (k : Kind) (p : Prog)
  /-- a function, or a block whose exceptions are caught: left early, the caller goes on -/
  | call (p : Prog)
  deriving Repr

/-- One after the other. -/
def does : List Prog → Prog
  | [] => .skip
  | [p] => p
  | p :: ps => .seq p (does ps)

/-- One of them. -/
def oneOf : List Prog → Prog
  | [] => .skip
  | [p] => p
  | p :: ps => .alt p (oneOf ps)

/-- Or not. -/
def opt (p : Prog) : Prog := .alt p .skip

/-! ## Logger and log store -/

/-- A line is logged, src/asio_service.cxx 687-710. -/
def logLine : Prog := .call (.guard .logger .skip)

/-- `fs_log_store::next_slot` and `start_index`, src/fs_log_store.cxx 253-263. -/
def nextSlot : Prog := .call (.guard .store (.rd .files))

/-- `fs_log_store::last_entry`, src/fs_log_store.cxx 265-274, include/fs_log_store.hxx 47-54. -/
def lastEntry : Prog := .call (.shared .cache (.rd .cached))

/-- `fs_log_store::append`, src/fs_log_store.cxx 276-297, and `log_store_buffer::append`, 141-150. -/
def append : Prog := .call (.guard .store (does [.wr .files, .call (.guard .cache (.wr .cached)), .wr .files]))

/-- `fs_log_store::write_at`, src/fs_log_store.cxx 299-367, `trim`, 126-139. -/
def writeAt : Prog :=
  .call (.guard .store (does [.wr .files, opt (.call (.guard .cache (.wr .cached))), .call (.guard .cache (.wr .cached)),
    .wr .files]))

/-- `fs_log_store::log_entries`, src/fs_log_store.cxx 369-438, `fill`, 92-123. Reading moves the positions in the files. -/
def logEntries : Prog :=
  .call (does [.guard .store (.rd .files), .call (.shared .cache (.rd .cached)), opt (.guard .store (.wr .files))])

/-- `fs_log_store::entry_at`, src/fs_log_store.cxx 441-481. -/
def entryAt : Prog := .call (does [.call (.shared .cache (.rd .cached)), opt (.guard .store (.wr .files))])

/-- `fs_log_store::term_at`, src/fs_log_store.cxx 483-513. -/
def termAt : Prog :=
  .call (does [.call (.shared .cache (.rd .cached)), opt (.call (.shared .cache (.rd .cached))),
    oneOf [.call (.shared .cache (.rd .cached)), .guard .store (.wr .files)]])

/-- `fs_log_store::pack`, src/fs_log_store.cxx 515-565. -/
def pack : Prog := .call (.guard .store (.wr .files))

/-- `fill_buffer`, src/fs_log_store.cxx 859-889. -/
def fillBuffer : Prog := .call (does [.call (.shared .cache (.rd .cached)), .wr .files, .star (.call (.guard .cache (.wr .cached)))])

/-- `fs_log_store::apply_pack`, src/fs_log_store.cxx 567-642. -/
def applyPack : Prog := .call (.guard .store (does [.wr .files, .call (.guard .cache (.wr .cached)), fillBuffer]))

/-- `fs_log_store::compact`, src/fs_log_store.cxx 644-848. -/
def compact : Prog := .call (.guard .store (does [.wr .files, opt (.call (.guard .cache (.wr .cached))), opt fillBuffer]))

/-! ## The server -/

/-- `is_leader`, src/raft_server.cxx 1053-1078. -/
def isLeader : Prog :=
  .call (.shared .peers (does [.rd .status, .rd .members, .star (does [.rd .members, .rd .lastResp]), .rd .status]))

/-- The state machine (`pre_commit`, `rollback`, `commit`, ...) and the state manager: code of the user, which may ask `is_leader`. -/
def machine : Prog := .call (.star isLeader)

/-- `term_for_log`, src/raft_server.cxx 859-880. -/
def termForLog : Prog := .call (does [nextSlot, oneOf [termAt, does [opt logLine]]])

/-- `create_sync_snapshot_req`, src/raft_server.cxx 795-857. The state machine's `read_snapshot_data` is taken to use no mutex of the
server. -/
def createSyncSnapshotReq : Prog :=
  .call (.guard .peer (does [.rd .sync, .rd .lastSnp, opt (does [.rd .lastSnp, logLine, .wr .sync]), .rd .sync, opt logLine]))

/-- `create_append_entries_req`, src/raft_server.cxx 638-694. -/
def createAppendEntriesReq : Prog :=
  .call (does [.guard .main (does [nextSlot, nextSlot, .rd .commits, .rd .status]),
    .guard .peer (does [.rd .sync, opt (.wr .sync), .rd .sync]),
    opt logLine,
    oneOf [createSyncSnapshotReq, does [termForLog, opt logEntries, logLine]]])

/-- `request_append_entries(peer&)`, src/raft_server.cxx 360-371. `peer::send_req` takes no mutex. -/
def requestAppendEntriesTo : Prog := .call (oneOf [createAppendEntriesReq, logLine])

/-- `commit`, src/raft_server.cxx 513-538. -/
def commit : Prog :=
  .call (does [.rd .commits,
    opt (does [.wr .commits, .rd .status, opt (.shared .peers (.star (does [.rd .members, requestAppendEntriesTo])))]),
    nextSlot, .rd .commits])

/-- `request_append_entries()`, src/raft_server.cxx 345-358. -/
def requestAppendEntries : Prog :=
  .call (.shared .peers (does [.rd .members,
    oneOf [does [nextSlot, commit], .star (does [.rd .members, requestAppendEntriesTo])]]))

/-- `handle_cli_req`, src/raft_server_req_handlers.cxx 232-264. -/
def handleCliReq : Prog :=
  .call (does [isLeader, .rd .status, .star (does [.rd .status, append, nextSlot, machine]), requestAppendEntries, nextSlot])

/-- `invite_srv_to_join_cluster`, src/raft_server_req_handlers.cxx 580-592. -/
def inviteSrv : Prog := .call (does [.rd .status, .rd .joining, nextSlot, .rd .commits, .rd .config, .rd .joining])

/-- `handle_add_srv_req`, src/raft_server_req_handlers.cxx 472-512. -/
def handleAddSrvReq : Prog :=
  .call (does [.rd .status, opt logLine, .shared .peers (does [.rd .members, opt logLine]), .rd .changing, opt logLine, .wr .joining,
    inviteSrv, nextSlot])

/-- `handle_rm_srv_req`, src/raft_server_req_handlers.cxx 416-470. -/
def handleRmSrvReq : Prog :=
  .call (does [.rd .status, opt logLine, .rd .changing, opt logLine, .shared .peers (does [.rd .members, opt logLine]), .rd .status,
    nextSlot, .rd .commits, nextSlot])

/-- `process_req` for a request of the server's own user, src/raft_server.cxx 1000-1002, src/raft_server_req_handlers.cxx 24-84. -/
def processOwn : Prog :=
  .call (does [logLine, .guard .main (oneOf [handleCliReq, handleAddSrvReq, handleRmSrvReq]), logLine])

/-- `send_msg_to_leader`, src/raft_server.cxx 989-1051: `add_srv`, `append_entries` and `remove_srv`, 951-987. -/
def sendMsgToLeader : Prog :=
  .call (does [.rd .status, .rd .config,
    oneOf [.skip, processOwn, .guard .rpc (does [.rd .clients, opt (does [.rd .config, .wr .clients])])]])

/-- `replicate_log`, src/raft_server.cxx 1080-1100. -/
def replicateLog : Prog := .call (does [isLeader, .rd .status, append, .guard .main requestAppendEntries])

/-- The calls that a user may make. -/
def userCall : Prog := oneOf [isLeader, sendMsgToLeader, replicateLog]

/-- The listener for events: code of the user, which may call any function of the server. -/
def listener : Prog := .call (.star userCall)

/-- `restart_election_timer`, src/raft_server.cxx 399-417. -/
def restartElectionTimer : Prog := .call (does [.rd .catching, .rd .timer, opt (.wr .timer)])

/-- `stop_election_timer`, src/raft_server.cxx 419-428. -/
def stopElectionTimer : Prog := .call (does [.rd .timer, opt logLine])

/-- `enable_hb_for_peer`, src/raft_server.cxx 466-471. -/
def enableHb : Prog := .call (does [.wr .sync, .wr .pace, .rd .pace])

/-- `become_leader`, src/raft_server.cxx 430-464. -/
def becomeLeader : Prog :=
  .call (does [stopElectionTimer, .wr .status, .wr .joining,
    .shared .peers (.star (does [.rd .members, nextSlot, .wr .sync, enableHb])),
    .rd .config, opt (does [nextSlot, .wr .config, append, logLine, .wr .changing]),
    opt listener, requestAppendEntries])

/-- `become_follower`, src/raft_server.cxx 473-494. -/
def becomeFollower : Prog :=
  .call (does [.wr .prevote, .shared .peers (.star (does [.rd .members, .wr .sync])), .wr .joining, .wr .status,
    restartElectionTimer, opt listener])

/-- `update_term`, src/raft_server.cxx 496-509. -/
def updateTerm : Prog :=
  .call (does [.rd .status, opt (does [.wr .status, .wr .votes, machine, becomeFollower])])

/-- `request_vote`, src/raft_server.cxx 302-343. -/
def requestVote : Prog :=
  .call (does [.rd .status, logLine, .wr .status, machine, .wr .votes,
    .shared .peers (does [.rd .members,
      oneOf [.wr .votes, .star (does [.rd .members, .rd .status, nextSlot, termForLog, nextSlot, .rd .commits, logLine])]]),
    opt becomeLeader])

/-- `become_candidate`, src/raft_server.cxx 238-255. -/
def becomeCandidate : Prog :=
  .call (does [.wr .prevote, .wr .status, .wr .votes, machine, requestVote, .rd .status, opt restartElectionTimer])

/-- `request_prevote`, src/raft_server.cxx 257-300. -/
def requestPrevote : Prog :=
  .call (does [logLine, .shared .peers (.rd .members), opt (does [logLine, becomeCandidate]), .wr .prevote,
    .shared .peers (.star (does [.rd .members, .rd .status, nextSlot, termForLog, nextSlot, .rd .commits, logLine]))])

/-- `handle_election_timeout`, src/raft_server.cxx 174-236. -/
def handleElectionTimeout : Prog :=
  .call (.guard .main (does [.rd .steps,
    opt (does [.wr .steps, logLine, opt (does [.wr .config, machine]), restartElectionTimer]),
    .rd .catching, opt (does [logLine, restartElectionTimer]), .rd .status, opt logLine,
    oneOf [does [.rd .prevote, logLine, opt requestPrevote], does [logLine, becomeCandidate]]]))

/-- `handle_hb_timeout`, src/raft_server.cxx 373-397. -/
def handleHbTimeout : Prog :=
  .call (.guard .main (does [logLine, .rd .status,
    oneOf [does [requestAppendEntriesTo, .guard .peer (does [.rd .sync, oneOf [.rd .pace, logLine]])], logLine]]))

/-- `reconfigure`, src/raft_server.cxx 698-787. -/
def reconfigure : Prog :=
  .call (does [logLine, .shared .peers (.star (.rd .members)),
    .star (does [nextSlot, .guard .peers (.wr .members), logLine, .rd .status,
      opt (does [logLine, enableHb, .rd .joining, opt (does [.rd .sync, .wr .sync, .wr .joining])])]),
    .star (does [.rd .catching, opt (does [machine, logLine]),
      .guard .peers (does [.rd .members, oneOf [does [.wr .sync, .wr .members, logLine], logLine]])]),
    .wr .config])

/-- `on_snapshot_completed`, src/raft_server.cxx 608-636. -/
def onSnapshotCompleted : Prog :=
  .call (oneOf [logLine, .guard .main (does [logLine, .wr .lastSnp, opt compact])])

/-- `snapshot_and_compact`, src/raft_server.cxx 540-606. The state machine may complete the snapshot at once. -/
def snapshotAndCompact : Prog :=
  .call (does [nextSlot, .call (does [.rd .lastSnp, logLine, .rd .config, .star (does [nextSlot, entryAt]), .rd .lastSnp, opt logLine,
    termAt, opt onSnapshotCompleted, machine]), opt logLine])

/-- `handle_append_entries`, src/raft_server_req_handlers.cxx 86-191. -/
def handleAppendEntries : Prog :=
  .call (does [.rd .status, oneOf [.skip, becomeFollower, logLine, restartElectionTimer], nextSlot, opt (does [nextSlot, termForLog]),
    .star (does [nextSlot, termAt]),
    .star (does [nextSlot, entryAt, opt (does [.rd .config, logLine, .wr .changing]), machine, writeAt,
      opt (does [logLine, .wr .changing]), machine]),
    .star (does [append, opt (does [logLine, .wr .changing]), machine]),
    .wr .status, commit])

/-- `handle_vote_req`, src/raft_server_req_handlers.cxx 193-209. -/
def handleVoteReq : Prog :=
  .call (does [.rd .status, lastEntry, opt (does [lastEntry, nextSlot]), opt (does [nextSlot, .wr .status, machine])])

/-- `handle_prevote_req`, src/raft_server_req_handlers.cxx 211-230. -/
def handlePrevoteReq : Prog :=
  .call (does [.rd .status, lastEntry, opt (does [lastEntry, nextSlot]), opt (.rd .prevote), opt nextSlot])

/-- `handle_snapshot_sync_req`, src/raft_server_req_handlers.cxx 348-408. -/
def handleSnapshotSyncReq : Prog :=
  .call (does [.call (does [machine, opt (does [.rd .status, logLine, compact, stopElectionTimer, logLine, machine, reconfigure,
    .rd .config, machine, .wr .commits, .wr .lastSnp, restartElectionTimer, logLine])]), opt logLine])

/-- `handle_install_snapshot_req`, src/raft_server_req_handlers.cxx 295-346. -/
def handleInstallSnapshotReq : Prog :=
  .call (does [.rd .status, .rd .catching, oneOf [.skip, becomeFollower, logLine, restartElectionTimer], .rd .status, opt logLine,
    .rd .commits, opt logLine, handleSnapshotSyncReq])

/-- `handle_log_sync_req`, src/raft_server_req_handlers.cxx 514-534. -/
def handleLogSyncReq : Prog :=
  .call (does [.rd .status, opt logLine, .rd .catching, opt logLine, applyPack, nextSlot, commit, nextSlot])

/-- `handle_join_cluster_req`, src/raft_server_req_handlers.cxx 594-621. -/
def handleJoinClusterReq : Prog :=
  .call (does [.rd .status, opt logLine, .rd .catching, opt logLine, .wr .catching, .wr .status, .wr .commits, machine, reconfigure,
    nextSlot])

/-- `handle_leave_cluster_req`, src/raft_server_req_handlers.cxx 623-633. -/
def handleLeaveClusterReq : Prog := .call (does [.rd .status, .rd .changing, opt (does [.wr .steps, nextSlot])])

/-- `process_req`, src/raft_server_req_handlers.cxx 24-84, and `handle_extended_msg`, 266-293. -/
def processReq : Prog :=
  .call (does [logLine,
    .guard .main (does [
      opt (does [updateTerm, .rd .steps, opt (.wr .steps)]),
      oneOf [handleAppendEntries, handleVoteReq, handleCliReq, handleAddSrvReq, handleRmSrvReq, handleLogSyncReq,
        handleJoinClusterReq, handleLeaveClusterReq, handleInstallSnapshotReq, handlePrevoteReq, logLine]]),
    opt logLine])

/-- `rm_srv_from_cluster`, src/raft_server_req_handlers.cxx 635-652. -/
def rmSrvFromCluster : Prog :=
  .call (does [nextSlot, .rd .config, logLine, .wr .changing, .rd .status, append, requestAppendEntries])

/-- `sync_log_to_new_srv`, src/raft_server_req_handlers.cxx 536-578. -/
def syncLogToNewSrv : Prog :=
  .call (does [.rd .commits,
    oneOf [does [.rd .joining, logLine, nextSlot, .rd .config, .rd .joining, .rd .status, append, .wr .changing, requestAppendEntries],
      does [nextSlot, .rd .joining, oneOf [createSyncSnapshotReq, does [pack, .rd .status, .rd .commits]], .rd .joining]]])

/-- `handle_append_entries_resp`, src/raft_server_resp_handlers.cxx 85-141. -/
def handleAppendEntriesResp : Prog :=
  .call (.shared .peers (does [.rd .members, opt logLine,
    oneOf [does [.guard .peer (.wr .sync), .rd .members, nextSlot, .star (does [.rd .members, .rd .sync]), .rd .members, commit, nextSlot],
      .guard .peer (does [.rd .sync, .wr .sync])],
    .rd .status, opt requestAppendEntriesTo]))

/-- `handle_install_snapshot_resp`, src/raft_server_resp_handlers.cxx 143-197. -/
def handleInstallSnapshotResp : Prog :=
  .call (.shared .peers (does [.rd .members, opt logLine,
    oneOf [.guard .peer (does [.rd .sync, logLine, opt (does [.wr .sync, nextSlot])]), logLine],
    .rd .status, opt requestAppendEntriesTo]))

/-- `handle_voting_resp`, src/raft_server_resp_handlers.cxx 198-239. The server becomes leader while it has `peers_lock_`. -/
def handleVotingResp : Prog :=
  .call (does [.rd .status, opt logLine, .rd .votes, opt logLine,
    .shared .peers (does [.wr .votes, .rd .members, opt (does [.rd .status, logLine, .wr .votes, becomeLeader])])])

/-- `handle_prevote_resp`, src/raft_server_resp_handlers.cxx 241-276. -/
def handlePrevoteResp : Prog :=
  .call (does [.rd .prevote, opt logLine,
    .shared .peers (does [.wr .prevote, opt logLine, .rd .members,
      oneOf [.skip, does [logLine, becomeCandidate], does [logLine, .wr .prevote, restartElectionTimer]]])])

/-- The part of `handle_peer_resp` before `lock_` is taken, src/raft_server_resp_handlers.cxx 26-53, and `peer::handle_rpc_result`,
src/peer.cxx 29-49. -/
def notePeerResp : Prog :=
  does [.wr .pace, opt logLine, .shared .peers (does [.rd .members, oneOf [.wr .lastResp, logLine]]), logLine]

/-- `handle_peer_resp`, src/raft_server_resp_handlers.cxx 24-83. -/
def handlePeerResp : Prog :=
  .call (does [notePeerResp,
    .guard .main (does [updateTerm, oneOf [handleVotingResp, handleAppendEntriesResp, handleInstallSnapshotResp, logLine]])])

/-- `handle_ext_resp_err`, src/raft_server_resp_handlers.cxx 388-465. -/
def handleExtRespErr : Prog :=
  .call (does [logLine, oneOf [.shared .peers (.rd .members), .rd .joining], .rd .pace,
    oneOf [.skip,
      does [logLine, .guard .peers (does [.rd .members, opt (does [.wr .sync, .wr .members, logLine])]), rmSrvFromCluster],
      does [logLine, .wr .changing, .wr .joining],
      does [logLine, .wr .pace, .rd .pace]]])

/-- `handle_ext_resp`, src/raft_server_resp_handlers.cxx 278-386. -/
def handleExtResp : Prog :=
  .call (does [.wr .pace, .guard .main (oneOf [handleExtRespErr,
    does [logLine, oneOf [
      does [.rd .joining, .wr .pace, .wr .sync, syncLogToNewSrv],
      does [.rd .joining, logLine, opt syncLogToNewSrv],
      does [logLine, rmSrvFromCluster],
      does [.rd .joining, .rd .sync, opt logLine, .wr .sync, .rd .sync, syncLogToNewSrv],
      handlePrevoteResp, logLine]]])])

/-- `on_retryable_req_err`, src/raft_server_req_handlers.cxx 410-414. -/
def onRetryableReqErr : Prog := .call logLine

/-- The commit thread from one wait to the next, `commit_in_bg`, src/raft_server.cxx 882-949. The wait itself (line 897) is between
two runs of this program; it begins and ends with `commit_lock_` taken. -/
def commitRound : Prog :=
  does [.guard .commit .skip,
    opt (.guard .stopping .skip),
    .call (does [
      .star (does [.rd .commits, nextSlot, .wr .commits, entryAt,
        oneOf [machine,
          .guard .main (does [logLine, machine, .wr .changing, .rd .config, opt reconfigure, .rd .catching,
            opt (does [logLine, .wr .catching])])],
        snapshotAndCompact]),
      .rd .commits, nextSlot]),
    opt logLine, opt listener, .guard .commit .skip]

/-- `flush_all_loggers`, src/asio_service.cxx 624-645, with `flush`, 661-678. -/
def flushAllLoggers : Prog := .call (.guard .loggers (.star (.call (.guard .logger .skip))))

/-- `create_logger`, src/asio_service.cxx 762-771. -/
def createLogger : Prog := .call (.guard .loggers .skip)

/-- `remove_session`, src/asio_service.cxx 362-374. -/
def removeSession : Prog := .call (.guard .session .skip)

/-- What the threads of a process run: the calls of users, the requests that sessions have read, the answers, the timers, the
completion of snapshots, the commit thread and the service. The constructor and the destructor of the server are left out, and so is
`stop` of the service. -/
def entryPoints : List Prog :=
  [userCall, processReq, handlePeerResp, handleExtResp, handleElectionTimeout, handleHbTimeout, onSnapshotCompleted, onRetryableReqErr,
    commitRound, flushAllLoggers, createLogger, removeSession]

/-! ## Executions -/

/-- A mutex. -/
structure Lk where
  kind : Kind
  /-- which one, if there are several of this kind -/
  no : Nat := 0
  deriving DecidableEq, Repr

/-- There is such a mutex. -/
def Lk.Is (l : Lk) (k : Kind) : Prop := l.kind = k ∧ (k.many = false → l.no = 0)

/-- What a thread does next. -/
inductive Act where
  | lock (l : Lk)
  | rlock (l : Lk)
  /-- the guard taken last is destroyed -/
  | unlock
  | rd (v : Var)
  | wr (v : Var)
  deriving DecidableEq, Repr

/-- `Trace p b t`: running `p` may do `t`, and then comes to its end (`b`) or leaves it by a return or an exception. -/
inductive Trace : Prog → Bool → List Act → Prop
  | skip : Trace .skip true []
  | rd (v) : Trace (.rd v) true [.rd v]
  | wr (v) : Trace (.wr v) true [.wr v]
  /-- a return or an exception -/
  | leave (p) : Trace p false []
  | seq {p q b t u} : Trace p true t → Trace q b u → Trace (.seq p q) b (t ++ u)
  | seqLeft {p q t} : Trace p false t → Trace (.seq p q) false t
  | altL {p q b t} : Trace p b t → Trace (.alt p q) b t
  | altR {p q b t} : Trace q b t → Trace (.alt p q) b t
  | starEnd {p} : Trace (.star p) true []
  | starStep {p b t u} : Trace p true t → Trace (.star p) b u → Trace (.star p) b (t ++ u)
  | starLeft {p t} : Trace p false t → Trace (.star p) false t
  | guard {k p b t l} : l.Is k → Trace p b t → Trace (.guard k p) b (.lock l :: t ++ [.unlock])
  | shared {k p b t l} : l.Is k → Trace p b t → Trace (.shared k p) b (.rlock l :: t ++ [.unlock])
  | callEnd {p b t} : Trace p b t → Trace (.call p) true t
  | callLeft {p t} : Trace p false t → Trace (.call p) false t

/-- A mutex that a thread has. -/
structure Hold where
  lk : Lk
  shared : Bool
  deriving DecidableEq, Repr

/-- A thread. -/
structure Thread where
  /-- what it has, the latest first -/
  held : List Hold := []
  /-- what it still does before it has finished what it runs -/
  rest : List Act := []
  deriving DecidableEq, Repr

/-- A thread that waits for something to do. -/
def Thread.idle : Thread := {}

/-- Thread `i` can get the mutex `l` for itself: no other thread has it, and itself it has it only if the mutex is recursive. -/
def CanLock (ts : List Thread) (i : Nat) (l : Lk) : Prop :=
  ∀ (j : Nat) (t : Thread) (h : Hold), ts[j]? = some t → h ∈ t.held → h.lk = l → j = i ∧ l.kind.recursive = true

/-- Thread `i` can share the mutex `l`: no thread has it for itself. -/
def CanShare (ts : List Thread) (l : Lk) : Prop :=
  ∀ (j : Nat) (t : Thread) (h : Hold), ts[j]? = some t → h ∈ t.held → h.lk = l → h.shared = true

/-- No thread other than `i` waits to have the mutex `l` for itself. -/
def NoneWaits (ts : List Thread) (i : Nat) (l : Lk) : Prop :=
  ∀ (j : Nat) (t : Thread) (r : List Act), ts[j]? = some t → t.rest = .lock l :: r → j = i

/-- Thread `i` does its next action. A shared mutex may be given to a reader although a writer waits for it (`strict = false`), or
never (`strict = true`): the standard allows both, also mixed. -/
inductive Move (strict : Bool) (ts : List Thread) (i : Nat) : List Thread → Prop
  | lock {h l r} : ts[i]? = some ⟨h, .lock l :: r⟩ → CanLock ts i l → Move strict ts i (ts.set i ⟨⟨l, false⟩ :: h, r⟩)
  | rlock {h l r} : ts[i]? = some ⟨h, .rlock l :: r⟩ → CanShare ts l → (strict = true → NoneWaits ts i l) →
      Move strict ts i (ts.set i ⟨⟨l, true⟩ :: h, r⟩)
  | unlock {g h r} : ts[i]? = some ⟨g :: h, .unlock :: r⟩ → Move strict ts i (ts.set i ⟨h, r⟩)
  | rd {h v r} : ts[i]? = some ⟨h, .rd v :: r⟩ → Move strict ts i (ts.set i ⟨h, r⟩)
  | wr {h v r} : ts[i]? = some ⟨h, .wr v :: r⟩ → Move strict ts i (ts.set i ⟨h, r⟩)

/-- Thread `i`, which waits for something to do, begins to run a program of `ps`. -/
inductive Begin (ps : List Prog) (ts : List Thread) : List Thread → Prop
  | mk {i p b t} : ts[i]? = some .idle → p ∈ ps → Trace p b t → Begin ps ts (ts.set i ⟨[], t⟩)

/-- The states that threads running programs of `ps` come to, any number of them. -/
inductive Reach (ps : List Prog) : List Thread → Prop
  | init (n : Nat) : Reach ps (List.replicate n .idle)
  | begin {ts us} : Reach ps ts → Begin ps ts us → Reach ps us
  | move {ts us i} : Reach ps ts → Move false ts i us → Reach ps us

end Cs.Locks
