import Verif.Raft.Types

/-!
# The Raft server

`src/raft_server.cxx`, `src/raft_server_req_handlers.cxx`, `src/raft_server_resp_handlers.cxx`, `src/peer.cxx`, function by
function, in program order. A handler runs under `lock_`, so it is one function of the server state; the log output is left
out. `system_exit` ends the process: the model stops with the fault `exit`. Iteration over the hash map `peers_` is in the
order of the list. Locks are not modelled here (the shared lock `peers_lock_` is taken recursively by some handlers).
-/

namespace Cs.Raft
open Cs

/-- The monad of the handlers. -/
abbrev R := M Srv

/-- Record an effect. -/
def emit (e : Eff) : R Unit := modify fun s => { s with trace := s.trace ++ [e] }

/-- `ctx_->state_mgr_->system_exit(code)`: the process ends. -/
def die {α : Type} (code : Int) : R α := do
  emit (.exit code)
  throw (.exit code)

/-- `ctx_->state_mgr_->save_state(*state_)`. -/
def saveState : R Unit := do
  let s ← get
  emit (.saveState s.term s.vote)

/-- `try { m } catch (...) { h }`. -/
def catchThrown (m h : R Unit) : R Unit := fun s =>
  match m s with
  | (.error .thrown, s') => h s'
  | r => r

/-- Run an action for every element. -/
def forEach {α : Type} (f : α → R Unit) : List α → R Unit
  | [] => pure ()
  | a :: as => do
    f a
    forEach f as

/-- A peer by reference; using one that is not there is undefined behaviour. -/
def getPeer (r : PeerRef) : R Peer := do
  let s ← get
  match s.peer r with
  | some p => pure p
  | none => throw .ub

/-- Update a peer. -/
def modPeer (r : PeerRef) (f : Peer → Peer) : R Unit := modify fun s => s.setPeer r f

/-- Ids of the peers, in iteration order. -/
def peerIds : R (List Int) := do
  let s ← get
  pure (s.peers.map Peer.id)

/-! ## Log access -/

/-- `log_store_->append`. -/
def logAppend (e : Entry) : R Unit := do
  modify fun s => { s with log := s.log.append e }
  emit (.append e)

/-- `log_store_->write_at`. -/
def logWriteAt (i : Nat) (e : Entry) : R Unit := do
  modify fun s => { s with log := s.log.replaceFrom i [e] }
  emit (.writeAt i e)

/-- `log_store_->term_at`: `fs_log_store` throws outside the log, src/fs_log_store.cxx 483-513. The interface promises 0
below the first index, include/log_store.hxx 76-81. -/
def termAt (i : Nat) : R Nat := do
  let s ← get
  match s.log.get? i with
  | some e => pure e.term
  | none => throw .thrown

/-- `log_store_->entry_at(i)`, then used without a check. `fs_log_store` throws below the first index and gives a null
pointer behind the end, src/fs_log_store.cxx 453-466. -/
def entryAt (i : Nat) : R Entry := do
  let s ← get
  match s.log.get? i with
  | some e => pure e
  | none => throw (if i < s.log.start then .thrown else .ub)

/-- The same in the commit thread, which ends the process when an exception is thrown, raft_server.cxx 942-947. -/
def entryToApply (i : Nat) : R Entry := do
  let s ← get
  match s.log.get? i with
  | some e => pure e
  | none => if i < s.log.start then die (-1) else throw .ub

/-- `log_store_->apply_pack`: a pack without entries is refused with an exception, as its index cannot be read
(src/fs_log_store.cxx 591). What `fs_log_store` does to its files when the index is not in the log or right behind it is not
modelled here and counted as undefined behaviour. -/
def logApplyPack (i : Nat) (es : List Entry) : R Unit := do
  let s ← get
  if es = [] then throw .thrown
  else if i < s.log.start ∨ s.log.next < i then throw .ub
  else do
    modify fun s => { s with log := s.log.replaceFrom i es }
    emit (.applyPack i es)

/-- `log_store_->compact(i)`. -/
def logCompact (i : Nat) : R Bool := do
  let s ← get
  if i < s.log.start then throw .thrown
  else if s.env.compactOk i then do
    modify fun s => { s with log := s.log.compact i }
    emit (.compact i)
    pure true
  else pure false

/-- `term_for_log`, raft_server.cxx 859-880. -/
def termForLog (i : Nat) : R Nat := do
  let s ← get
  if i = 0 then pure 0
  else if s.log.start ≤ i then termAt i
  else
    match s.smSnap with
    | some snp => if i ≠ snp.lastIdx then die (-1) else pure snp.lastTerm
    | none => die (-1)

/-! ## Timers and roles -/

/-- `restart_election_timer`, raft_server.cxx 399-417. -/
def restartElectionTimer : R Unit := do
  let s ← get
  if s.catchingUp then pure () else modify fun s => { s with armed := true }

/-- `stop_election_timer`, raft_server.cxx 419-428. -/
def stopElectionTimer : R Unit := modify fun s => { s with armed := false }

/-- `enable_hb_for_peer`, raft_server.cxx 466-471, with `peer::enable_hb` and `peer::resume_hb_speed`, peer.hxx 93-100 and
166-169. -/
def enableHb (r : PeerRef) : R Unit := do
  let s ← get
  modPeer r fun p => { p with hbEnabled := true, hbInterval := s.params.hbInterval, hbArmed := true }

/-- `peer::enable_hb(false)`, peer.hxx 93-100. -/
def disableHb (p : Peer) : Peer := { p with hbEnabled := false, hbArmed := false }

/-- `peer::slow_down_hb`, peer.hxx 161-164. -/
def slowDownHb (pr : Params) (p : Peer) : Peer :=
  { p with hbInterval := min pr.maxHb (p.hbInterval + pr.rpcBackoff) }

/-- `peer::resume_hb_speed`, peer.hxx 166-169. -/
def resumeHb (pr : Params) (p : Peer) : Peer := { p with hbInterval := pr.hbInterval }

/-- `become_follower`, raft_server.cxx 473-494. -/
def becomeFollower : R Unit := do
  modify fun s => { s with prevote := none }
  modify fun s => { s with peers := s.peers.map disableHb }
  modify fun s => { s with srvToJoin := none }
  modify fun s => { s with role := .follower }
  restartElectionTimer
  emit (.event .becomeFollower)

/-- `update_term`, raft_server.cxx 496-511. -/
def updateTerm (term : Nat) : R Bool := do
  let s ← get
  if s.term < term then do
    modify fun s => { s with term := term, vote := -1 }
    modify fun s => { s with electionCompleted := false, votesGranted := 0, voted := [] }
    saveState
    becomeFollower
    pure true
  else pure false

/-! ## Sending entries -/

/-- `get_snapshot_sync_block_size`, raft_server.cxx 789-793. -/
def blockSize (p : Params) : Int := if p.snpBlock = 0 then 4096 else p.snpBlock

/-- Lines 805-828 of `create_sync_snapshot_req`: the snapshot to send. If there is none, the message about it (line 812) uses the null
pointer before the process is ended. -/
def chooseSnap (r : PeerRef) (lastIdx : Nat) : R Unit := do
  let s ← get
  let p ← getPeer r
  if (match p.snpCtx with
      | none => true
      | some (snp, _) => match s.lastSnap with
        | some l => decide (snp.lastIdx < l.lastIdx)
        | none => false) then
    match s.lastSnap with
    | none => throw .ub
    | some snp =>
      if snp.lastIdx < lastIdx then die (-1)
      else if snp.size < 1 then die (-1)
      else modPeer r fun p => { p with snpCtx := some (snp, 0) }
  else pure ()

/-- What is in a buffer of `n` bytes after `read_snapshot_data`, raft_server.cxx 833-834: exactly `n` bytes, as the buffer has no
others. -/
def Env.held (e : Env) (snp : Snap) (offset n : Nat) : List Byte := (e.readSnp snp offset n ++ List.replicate n 0).take n

/-- The bytes of the block in the serialised request: those from the position of the buffer on, src/snapshot_sync_req.cxx 41-51 and
src/buffer.cxx 252-267. -/
def Env.block (e : Env) (snp : Snap) (offset n : Nat) : List Byte := (e.held snp offset n).drop (e.readPos snp offset n)

/-- The test `(size_t)sz_rd < data->size()`, raft_server.cxx 835: the number returned is taken modulo 2^64. -/
def Env.short (e : Env) (snp : Snap) (offset n : Nat) : Prop := (e.readRet snp offset n % 2 ^ 64).toNat < n

instance (e : Env) (snp : Snap) (offset n : Nat) : Decidable (e.short snp offset n) := by unfold Env.short; infer_instance

/-- `create_sync_snapshot_req`, raft_server.cxx 795-857. The size left is cast to `int32`; `buffer::alloc` throws for
sizes of 2^31 and more, in particular for a negative number of bytes left (lines 831-833). -/
def createSyncSnapshotReq (r : PeerRef) (lastIdx term commitIdx : Nat) : R Req := do
  chooseSnap r lastIdx
  let s ← get
  let p ← getPeer r
  match p.snpCtx with
  | none => throw .ub
  | some (snp, offset) =>
    if min (blockSize s.params) (toI32 (subU64 snp.size offset)) < 0 then throw .thrown
    else
      if s.env.short snp offset (min (blockSize s.params) (toI32 (subU64 snp.size offset))).toNat then die (-1)
      else
        pure { type := .snpReq, term := term, src := s.id, dst := p.id, lastTerm := snp.lastTerm,
               lastIdx := snp.lastIdx, commitIdx := commitIdx, entries := [⟨term, .snpSync⟩],
               sync := some ⟨snp, offset,
                 s.env.block snp offset (min (blockSize s.params) (toI32 (subU64 snp.size offset))).toNat,
                 decide (snp.size ≤ offset + (min (blockSize s.params) (toI32 (subU64 snp.size offset))).toNat)⟩ }

/-- Lines 679-682 of `create_append_entries_req`: the entries behind `last`. `fs_log_store::log_entries` throws when the
first of them has been compacted away, src/fs_log_store.cxx 374-377. -/
def entriesFrom (last : Nat) : R (List Entry) := do
  let s ← get
  if s.log.next ≤ last + 1 then pure []
  else if last + 1 < s.log.start then throw .thrown
  else pure (s.log.range (last + 1) (min s.log.next (last + 1 + s.params.maxAppend)))

/-- Lines 678-695 of `create_append_entries_req`. -/
def appendReqFrom (r : PeerRef) (last : Nat) : R Req := do
  let t ← termForLog last
  let es ← entriesFrom last
  let s ← get
  let p ← getPeer r
  pure { type := .appendReq, term := s.term, src := s.id, dst := p.id, lastTerm := t, lastIdx := last,
         commitIdx := s.quickCommit, entries := es }

/-- `create_append_entries_req`, raft_server.cxx 638-696. -/
def createAppendReq (r : PeerRef) : R Req := do
  let s ← get
  modPeer r fun p => if p.nextIdx = 0 then { p with nextIdx := s.log.next } else p
  let p ← getPeer r
  if s.log.next ≤ p.nextIdx - 1 then die (-1)
  else if 0 < p.nextIdx - 1 ∧ p.nextIdx - 1 < s.log.start - 1 then
    createSyncSnapshotReq r (p.nextIdx - 1) s.term s.quickCommit
  else appendReqFrom r (p.nextIdx - 1)

/-- `request_append_entries(peer&)`, raft_server.cxx 360-371, with `peer::make_busy`, peer.hxx 77-81. -/
def requestAppend (r : PeerRef) : R Bool := do
  let p ← getPeer r
  if p.busy then pure false
  else do
    modPeer r fun p => { p with busy := true }
    let req ← createAppendReq r
    emit (.send req)
    pure true

/-- Lines 521-531 of `commit`, for one peer. -/
def commitNotify (id : Int) : R Unit := do
  let sent ← requestAppend (.member id)
  if sent then pure () else modPeer (.member id) fun p => { p with pending := true }

/-- `commit`, raft_server.cxx 513-538. Waking the commit thread (534-537) is the subject of `Verif/Conc`. -/
def commit (target : Nat) : R Unit := do
  let s ← get
  if s.quickCommit < target then do
    modify fun s => { s with quickCommit := target }
    emit (.advance target)
    if s.role = .leader then do
      let ids ← peerIds
      forEach commitNotify ids
    else pure ()
  else pure ()

/-- One step of the loop in `request_append_entries`. -/
def requestAppendTo (id : Int) : R Unit := do
  let _ ← requestAppend (.member id)
  pure ()

/-- `request_append_entries()`, raft_server.cxx 345-358. -/
def requestAppendAll : R Unit := do
  let s ← get
  if s.peers = [] then commit (s.log.next - 1)
  else do
    let ids ← peerIds
    forEach requestAppendTo ids

/-! ## Elections -/

/-- Lines 437-446 of `become_leader`, for one peer. -/
def leaderPeer (id : Int) : R Unit := do
  let s ← get
  modPeer (.member id) fun p => { p with nextIdx := s.log.next, snpCtx := none, busy := false }
  enableHb (.member id)

/-- `become_leader`, lines 448-456: the initial configuration. `set_log_idx` (cluster_config.hxx 48-52) keeps the old index. -/
def initialConf : R Unit := do
  let s ← get
  if s.config.logIdx = 0 then do
    modify fun s => { s with config := { s.config with prevLogIdx := s.config.logIdx, logIdx := s.log.next } }
    let s ← get
    logAppend ⟨s.term, .conf s.config⟩
    modify fun s => { s with configChanging := true }
  else pure ()

/-- `become_leader`, raft_server.cxx 430-464. -/
def becomeLeader : R Unit := do
  stopElectionTimer
  let s ← get
  modify fun s => { s with role := .leader }
  emit (.lead s.term)
  modify fun s => { s with leader := s.id }
  modify fun s => { s with srvToJoin := none }
  let ids ← peerIds
  forEach leaderPeer ids
  initialConf
  emit (.event .becomeLeader)
  requestAppendAll

/-- Lines 324-334 of `request_vote`, and 287-297 of `request_prevote`, for one peer. -/
def askVote (ty : MsgType) (id : Int) : R Unit := do
  let s ← get
  let t ← termForLog (s.log.next - 1)
  emit (.send { type := ty, term := s.term, src := s.id, dst := id, lastTerm := t, lastIdx := s.log.next - 1,
                commitIdx := s.quickCommit })

/-- Lines 304-309 of `request_vote`: the vote for itself. -/
def voteSelf : R Unit := do
  modify fun s => { s with vote := s.id }
  saveState
  modify fun s => { s with votesGranted := s.votesGranted + 1 }
  modify fun s => { s with voted := if s.id ∈ s.voted then s.voted else s.id :: s.voted }

/-- Lines 311-342 of `request_vote`. -/
def askForVotes : R Unit := do
  let s ← get
  if (s.peers.length + 1) / 2 < s.votesGranted then do
    modify fun s => { s with electionCompleted := true }
    becomeLeader
  else do
    let ids ← peerIds
    forEach (askVote .voteReq) ids

/-- `request_vote`, raft_server.cxx 302-343. -/
def requestVote : R Unit := do
  voteSelf
  askForVotes

/-- Lines 240-247 of `become_candidate`. -/
def startTerm : R Unit := do
  modify fun s => { s with prevote := none }
  modify fun s => { s with term := s.term + 1, vote := -1 }
  modify fun s => { s with role := .candidate }
  modify fun s => { s with votesGranted := 0, voted := [], electionCompleted := false }
  saveState

/-- Lines 249-254 of `become_candidate`. -/
def rearm : R Unit := do
  let s ← get
  if s.role ≠ .leader then restartElectionTimer else pure ()

/-- `become_candidate`, raft_server.cxx 238-255. -/
def becomeCandidate : R Unit := do
  startTerm
  requestVote
  rearm

/-- `prevote_state::add_voted_server`, srv_state.hxx 90-94: is the server new? -/
def addPrevoter (v : List Int) (id : Int) : List Int := if id ∈ v then v else id :: v

/-- `request_prevote`, raft_server.cxx 257-300. -/
def requestPrevote : R Unit := do
  let s ← get
  if s.peers = [] then becomeCandidate
  else do
    modify fun s => { s with prevote := match s.prevote with
      | none => some ([s.id], 1)
      | some (v, n) => some (addPrevoter v s.id, n + 1) }
    let ids ← peerIds
    forEach (askVote .prevoteReq) ids

/-- Lines 182-192 of `handle_election_timeout`: leave the configuration. -/
def leaveConfig : R Unit := do
  let s ← get
  if s.config.has s.id then do
    modify fun s => { s with config := { s.config with servers := s.config.servers.eraseP (·.id == s.id) } }
    let s ← get
    emit (.saveConfig s.config)
  else pure ()

/-- `handle_election_timeout`, raft_server.cxx 174-236. -/
def handleElectionTimeout : R Unit := do
  modify fun s => { s with armed := false }
  let s ← get
  if 0 < s.stepsToDown then do
    modify fun s => { s with stepsToDown := s.stepsToDown - 1 }
    if s.stepsToDown - 1 = 0 then do
      leaveConfig
      die (-1)
    else restartElectionTimer
  else if s.catchingUp then restartElectionTimer
  else if s.role = .leader then die (-1)
  else if s.params.prevote ∧ s.role = .follower then
    if (match s.prevote with | some (v, _) => !v.isEmpty | none => false) then pure ()
    else requestPrevote
  else becomeCandidate

/-- `handle_hb_timeout`, raft_server.cxx 373-397. The task has fired, so it is no longer scheduled. -/
def handleHbTimeout (r : PeerRef) : R Unit := do
  modPeer r fun p => { p with hbArmed := false }
  let s ← get
  if s.role = .leader then do
    let _ ← requestAppend r
    modPeer r fun p => if p.hbEnabled then { p with hbArmed := true } else p
  else pure ()

/-! ## Requests -/

/-- The loop of lines 127-138 of `handle_append_entries`: skip the entries the log has already. -/
def skipSame (idx : Nat) : List Entry → R (Nat × List Entry)
  | [] => pure (idx, [])
  | e :: es => do
    let s ← get
    if idx < s.log.next then do
      let t ← termAt idx
      if t = e.term then skipSame (idx + 1) es else pure (idx, e :: es)
    else pure (idx, e :: es)

/-- Lines 143-152: an entry is about to be overwritten. -/
def rollbackOld (idx : Nat) : R Unit := do
  let old ← entryAt idx
  if old.isApp then emit (.rollback idx old)
  else if old.isConf then modify fun s => { s with configChanging := false }
  else pure ()

/-- Lines 156-164 and 175-183: a new entry has been put in the log. -/
def noteNew (idx : Nat) (e : Entry) : R Unit :=
  if e.isApp then emit (.preCommit idx e)
  else if e.isConf then modify fun s => { s with configChanging := true }
  else pure ()

/-- The loop of lines 141-168: overwrite. -/
def overwriteOld (idx : Nat) : List Entry → R (List Entry)
  | [] => pure []
  | e :: es => do
    let s ← get
    if idx < s.log.next then do
      rollbackOld idx
      logWriteAt idx e
      noteNew idx e
      overwriteOld (idx + 1) es
    else pure (e :: es)

/-- The loop of lines 171-184: append. -/
def appendNew : List Entry → R Unit
  | [] => pure ()
  | e :: es => do
    let s ← get
    logAppend e
    noteNew s.log.next e
    appendNew es

/-- Lines 122-185 of `handle_append_entries`. -/
def storeEntries (req : Req) : R Unit := do
  let (idx, rest) ← skipSame (req.lastIdx + 1) req.entries
  let rest ← overwriteOld idx rest
  appendNew rest

/-- Lines 88-106 of `handle_append_entries`. -/
def hearLeader (req : Req) : R Unit := do
  let s ← get
  if req.term = s.term then
    match s.role with
    | .candidate => becomeFollower
    | .leader => die (-1)
    | .follower => restartElectionTimer
  else pure ()

/-- Lines 114-115 of `handle_append_entries`: `log_okay`. -/
def logOkay (req : Req) : R Bool := do
  let s ← get
  if req.lastIdx = 0 then pure true
  else if req.lastIdx < s.log.next then do
    let t ← termForLog req.lastIdx
    pure (decide (req.lastTerm = t))
  else pure false

/-- `handle_append_entries`, raft_server_req_handlers.cxx 86-191. -/
def handleAppendEntries (req : Req) : R Resp := do
  hearLeader req
  let s ← get
  let ok ← logOkay req
  if req.term < s.term ∨ ok = false then
    pure { type := .appendResp, term := s.term, src := s.id, dst := req.src, nextIdx := s.log.next }
  else do
    storeEntries req
    modify fun s => { s with leader := req.src }
    commit req.commitIdx
    pure { type := .appendResp, term := s.term, src := s.id, dst := req.src,
           nextIdx := req.lastIdx + req.entries.length + 1, accepted := true }

/-- `log_okay` of lines 196-198 and 214-216: is the log of the sender as up to date as ours? -/
def upToDate (req : Req) (l : Log) : Bool :=
  decide (l.lastTerm < req.lastTerm) || (decide (req.lastTerm = l.lastTerm) && decide (l.next - 1 ≤ req.lastIdx))

/-- `handle_vote_req`, raft_server_req_handlers.cxx 193-209. -/
def handleVoteReq (req : Req) : R Resp := do
  let s ← get
  if req.term = s.term ∧ upToDate req s.log = true ∧ (s.vote = req.src ∨ s.vote = -1) then do
    modify fun s => { s with vote := req.src }
    saveState
    pure { type := .voteResp, term := s.term, src := s.id, dst := req.src, nextIdx := s.log.next, accepted := true }
  else pure { type := .voteResp, term := s.term, src := s.id, dst := req.src }

/-- `handle_prevote_req`, raft_server_req_handlers.cxx 211-230. -/
def handlePrevoteReq (req : Req) : R Resp := do
  let s ← get
  if s.term ≤ req.term ∧ upToDate req s.log = true ∧ (s.params.defensive = true → s.prevote.isSome = true) then
    pure { type := .prevoteResp, term := s.term, src := s.id, dst := req.src, nextIdx := s.log.next, accepted := true }
  else pure { type := .prevoteResp, term := s.term, src := s.id, dst := req.src }

/-- Insert into a descending list. -/
def insertDesc (a : Nat) : List Nat → List Nat
  | [] => [a]
  | b :: l => if b ≤ a then a :: b :: l else b :: insertDesc a l

/-- `std::sort` with `std::greater`: the descending order of a list of numbers does not depend on the algorithm. -/
def sortDesc (l : List Nat) : List Nat := l.foldr insertDesc []

/-- Times of the last responses, sorted (lines 1060-1066 of `is_leader`). -/
def respTimes (s : Srv) : List Nat := (sortDesc (s.peers.map (·.lastResp))).reverse

/-- `peer_resp_times[peers_.size() / 2]`, raft_server.cxx 1069. -/
def quorumResp (s : Srv) : Nat := (respTimes s)[s.peers.length / 2]?.getD 0

/-- `is_leader`, raft_server.cxx 1053-1078. The elapsed time is cast to `int32` (1068). -/
def isLeader : R Bool := do
  let s ← get
  if s.role = .leader ∧ 0 < s.peers.length ∧ s.params.electionUpper * 2 < s.elapsed then do
    modify fun s => { s with elapsed := toI32 ((s.now : Int) - quorumResp s) }
    let s ← get
    if s.params.electionUpper * 2 < s.elapsed then pure false
    else pure (decide (s.role = .leader))
  else pure (decide (s.role = .leader))

/-- Lines 251-258 of `handle_cli_req`: stamp, append and announce the entries. -/
def appendClient : List Entry → R Unit
  | [] => pure ()
  | e :: es => do
    let s ← get
    logAppend { e with term := s.term }
    emit (.preCommit s.log.next { e with term := s.term })
    appendClient es

/-- `handle_cli_req`, raft_server_req_handlers.cxx 232-264. -/
def handleCliReq (req : Req) : R Resp := do
  let leader ← isLeader
  let s ← get
  if s.role = .leader ∧ leader = false then
    pure { type := .appendResp, term := s.term, src := s.id, dst := -1 }
  else if leader = false then
    pure { type := .appendResp, term := s.term, src := s.id, dst := s.leader }
  else do
    appendClient req.entries
    requestAppendAll
    let s' ← get
    pure { type := .appendResp, term := s.term, src := s.id, dst := s.leader, nextIdx := s'.log.next, accepted := true }

/-- Lines 732-756 of `reconfigure`, for one added server. `insert` does nothing if the id is there already (two servers of
the configuration with the same id). Simplified in that case: on a leader lines 743-753 concern the second object, which is destroyed
right after although its heartbeat task is scheduled; here they concern the first one. A leader's own commands do not make such a
configuration. -/
def addPeer (c : SrvCfg) : R Unit := do
  modify fun s => if (s.findPeer c.id).isSome then s else
    { s with peers := s.peers ++ [{ cfg := c, nextIdx := s.log.next, hbInterval := s.params.hbInterval }] }
  let s ← get
  if s.role = .leader then do
    enableHb (.member c.id)
    match s.srvToJoin with
    | some j =>
      if j.id = c.id then do
        modPeer (.member c.id) fun p => { p with nextIdx := j.nextIdx }
        modify fun s => { s with srvToJoin := none }
      else pure ()
    | none => pure ()
  else pure ()

/-- Lines 758-784 of `reconfigure`, for one removed server. -/
def removePeer (c : Config) (id : Int) : R Unit := do
  let s ← get
  if id = s.id ∧ s.catchingUp = false then do
    emit (.saveConfig c)
    die 0
  else modify fun s => { s with peers := s.peers.filter fun p => p.id != id }

/-- `reconfigure`, raft_server.cxx 698-787. -/
def reconfigure (c : Config) : R Unit := do
  let s ← get
  forEach addPeer (c.servers.filter fun x => (s.findPeer x.id).isNone && x.id != s.id)
  forEach (removePeer c) (((s.peers.map Peer.id).filter fun i => !c.has i) ++ if c.has s.id then [] else [s.id])
  modify fun s => { s with config := c }

/-- Lines 366-395 of `handle_snapshot_sync_req`: the last block has been received. An exception is caught and ends the
process (399-405). -/
def installSnapshot (snp : Snap) : R Bool := do
  let s ← get
  if snp.lastIdx < s.log.start then die (-1)
  else do
    let ok ← logCompact snp.lastIdx
    if ok then do
      stopElectionTimer
      emit (.applySnp snp)
      if s.env.applySnp snp = false then die (-1)
      else do
        modify fun s => { s with smSnap := some snp }
        reconfigure snp.config
        let s ← get
        emit (.saveConfig s.config)
        modify fun s => { s with smCommit := snp.lastIdx, quickCommit := snp.lastIdx }
        saveState
        modify fun s => { s with lastSnap := some { snp with config := s.config } }
        restartElectionTimer
        pure true
    else pure false

/-- `handle_snapshot_sync_req`, raft_server_req_handlers.cxx 348-408. -/
def handleSnapshotSync (q : SnpSync) : R Bool := do
  emit (.saveSnpData q.snap q.offset q.data)
  if q.done then do
    let s ← get
    if s.role ≠ .follower then die (-1) else installSnapshot q.snap
  else pure true

/-- Lines 297-316 of `handle_install_snapshot_req`. -/
def hearSnapshotLeader (req : Req) : R Unit := do
  let s ← get
  if req.term = s.term ∧ s.catchingUp = false then
    match s.role with
    | .candidate => becomeFollower
    | .leader => die (-1)
    | .follower => restartElectionTimer
  else pure ()

/-- `handle_install_snapshot_req`, raft_server_req_handlers.cxx 295-346. -/
def handleInstallSnapshot (req : Req) : R Resp := do
  hearSnapshotLeader req
  let s ← get
  if s.catchingUp = false ∧ req.term < s.term then
    pure { type := .snpResp, term := s.term, src := s.id, dst := req.src }
  else
    match req.entries, req.sync with
    | [⟨_, .snpSync⟩], some q =>
      if q.snap.lastIdx ≤ s.smCommit then pure { type := .snpResp, term := s.term, src := s.id, dst := req.src }
      else do
        let ok ← handleSnapshotSync q
        if ok then
          pure { type := .snpResp, term := s.term, src := s.id, dst := req.src, nextIdx := q.offset + q.data.length,
                 accepted := true }
        else pure { type := .snpResp, term := s.term, src := s.id, dst := req.src }
    | _, _ => pure { type := .snpResp, term := s.term, src := s.id, dst := req.src }

/-- `handle_rm_srv_req`, raft_server_req_handlers.cxx 416-470. -/
def handleRmSrv (req : Req) : R Resp := do
  let s ← get
  match req.entries with
  | [⟨_, .rmId id⟩] =>
    if s.role ≠ .leader ∨ s.configChanging = true ∨ id = s.id ∨ (s.findPeer id).isNone = true then
      pure { type := .rmResp, term := s.term, src := s.id, dst := s.leader }
    else do
      emit (.send { type := .leaveReq, term := s.term, src := s.id, dst := id, lastTerm := 0,
                    lastIdx := s.log.next - 1, commitIdx := s.quickCommit })
      pure { type := .rmResp, term := s.term, src := s.id, dst := s.leader, nextIdx := s.log.next, accepted := true }
  | _ => pure { type := .rmResp, term := s.term, src := s.id, dst := s.leader }

/-- `invite_srv_to_join_cluster`, raft_server_req_handlers.cxx 580-592. -/
def inviteSrv : R Unit := do
  let s ← get
  let p ← getPeer .joining
  emit (.send { type := .joinReq, term := s.term, src := s.id, dst := p.id, lastTerm := 0, lastIdx := s.log.next - 1,
                commitIdx := s.quickCommit, entries := [⟨s.term, .conf s.config⟩] })

/-- `handle_add_srv_req`, raft_server_req_handlers.cxx 472-512. -/
def handleAddSrv (req : Req) : R Resp := do
  let s ← get
  match req.entries with
  | [⟨_, .srv c⟩] =>
    if s.role ≠ .leader ∨ (s.findPeer c.id).isSome = true ∨ s.id = c.id ∨ s.configChanging = true then
      pure { type := .addResp, term := s.term, src := s.id, dst := s.leader }
    else do
      modify fun s => { s with confToAdd := some c }
      modify fun s => { s with srvToJoin := some { cfg := c, hbInterval := s.params.hbInterval } }
      inviteSrv
      pure { type := .addResp, term := s.term, src := s.id, dst := s.leader, nextIdx := s.log.next, accepted := true }
  | _ => pure { type := .addResp, term := s.term, src := s.id, dst := s.leader }

/-- `handle_log_sync_req`, raft_server_req_handlers.cxx 514-534. -/
def handleLogSync (req : Req) : R Resp := do
  let s ← get
  match req.entries with
  | [⟨_, .logPack⟩] =>
    if s.catchingUp = false then pure { type := .syncResp, term := s.term, src := s.id, dst := req.src }
    else do
      logApplyPack (req.lastIdx + 1) req.pack
      let s' ← get
      commit (s'.log.next - 1)
      pure { type := .syncResp, term := s.term, src := s.id, dst := req.src, nextIdx := s'.log.next, accepted := true }
  | _ => pure { type := .syncResp, term := s.term, src := s.id, dst := req.src }

/-- `handle_join_cluster_req`, raft_server_req_handlers.cxx 594-621. -/
def handleJoin (req : Req) : R Resp := do
  let s ← get
  match req.entries with
  | [⟨_, .conf c⟩] =>
    if s.catchingUp then pure { type := .joinResp, term := s.term, src := s.id, dst := req.src }
    else do
      modify fun s => { s with catchingUp := true, role := .follower, leader := req.src }
      modify fun s => { s with smCommit := 0, quickCommit := 0 }
      modify fun s => { s with vote := -1, term := req.term }
      saveState
      reconfigure c
      let s' ← get
      pure { type := .joinResp, term := s.term, src := s.id, dst := req.src, nextIdx := s'.log.next, accepted := true }
  | _ => pure { type := .joinResp, term := s.term, src := s.id, dst := req.src }

/-- `handle_leave_cluster_req`, raft_server_req_handlers.cxx 623-633. -/
def handleLeave (req : Req) : R Resp := do
  let s ← get
  if s.configChanging then pure { type := .leaveResp, term := s.term, src := s.id, dst := req.src }
  else do
    modify fun s => { s with stepsToDown := 2 }
    pure { type := .leaveResp, term := s.term, src := s.id, dst := req.src, nextIdx := s.log.next, accepted := true }

/-- `handle_extended_msg`, raft_server_req_handlers.cxx 266-293. -/
def handleExtended (req : Req) : R Resp :=
  match req.type with
  | .addReq => handleAddSrv req
  | .rmReq => handleRmSrv req
  | .syncReq => handleLogSync req
  | .joinReq => handleJoin req
  | .leaveReq => handleLeave req
  | .snpReq => handleInstallSnapshot req
  | .prevoteReq => handlePrevoteReq req
  | _ => die (-1)

/-- Lines 39-51 of `process_req`: the term of the sender. -/
def hearTerm (req : Req) : R Unit :=
  if req.type = .appendReq ∨ req.type = .voteReq ∨ req.type = .snpReq then do
    let _ ← updateTerm req.term
    modify fun s => { s with stepsToDown := if 0 < s.stepsToDown then 2 else s.stepsToDown }
  else pure ()

/-- Lines 53-69 of `process_req`. -/
def dispatch (req : Req) : R Resp :=
  match req.type with
  | .appendReq => handleAppendEntries req
  | .voteReq => handleVoteReq req
  | .clientReq => handleCliReq req
  | _ => handleExtended req

/-- `process_req`, raft_server_req_handlers.cxx 24-84. -/
def processReq (req : Req) : R Resp := do
  hearTerm req
  dispatch req

/-! ## Responses -/

/-- Matched indexes of this server and its peers, largest first (lines 108-116 of `handle_append_entries_resp`). -/
def matchedDesc (s : Srv) : List Nat :=
  sortDesc ((s.log.next - 1) :: s.peers.map (·.matched))

/-- Line 117: the index all of a majority have. -/
def commitTarget (s : Srv) : Nat := ((matchedDesc s)[(s.peers.length + 1) / 2]?).getD 0

/-- Lines 99-119 of `handle_append_entries_resp`: an accepted response. Is there more to send? -/
def acceptedResp (resp : Resp) : R Bool := do
  modPeer (.member resp.src) fun p => { p with nextIdx := resp.nextIdx, matched := subU64 resp.nextIdx 1 }
  let s ← get
  commit (commitTarget s)
  let p ← getPeer (.member resp.src)
  modPeer (.member resp.src) fun p => { p with pending := false }
  let s ← get
  pure (p.pending || decide (resp.nextIdx < s.log.next))

/-- Lines 120-132 of `handle_append_entries_resp`: a refused response. -/
def refusedResp (resp : Resp) : R Bool := do
  modPeer (.member resp.src) fun p =>
    if 0 < resp.nextIdx ∧ resp.nextIdx < p.nextIdx then { p with nextIdx := resp.nextIdx }
    else if 0 < p.nextIdx then { p with nextIdx := p.nextIdx - 1 }
    else p
  pure true

/-- `handle_append_entries_resp`, raft_server_resp_handlers.cxx 85-141. -/
def handleAppendResp (resp : Resp) : R Unit := do
  let s ← get
  if (s.findPeer resp.src).isNone then pure ()
  else do
    let more ← if resp.accepted then acceptedResp resp else refusedResp resp
    let s ← get
    if s.role = .leader ∧ more = true then requestAppendTo resp.src else pure ()

/-- Lines 157-183 of `handle_install_snapshot_resp`. -/
def acceptedSnpResp (resp : Resp) : R Bool := do
  let p ← getPeer (.member resp.src)
  match p.snpCtx with
  | none => pure false
  | some (snp, _) =>
    if snp.size ≤ resp.nextIdx then do
      modPeer (.member resp.src) fun p =>
        { p with nextIdx := snp.lastIdx + 1, matched := snp.lastIdx, snpCtx := none, pending := false }
      let s ← get
      pure (p.pending || decide (resp.nextIdx < s.log.next))
    else do
      modPeer (.member resp.src) fun p => { p with snpCtx := some (snp, resp.nextIdx) }
      pure true

/-- `handle_install_snapshot_resp`, raft_server_resp_handlers.cxx 143-196. -/
def handleSnpResp (resp : Resp) : R Unit := do
  let s ← get
  if (s.findPeer resp.src).isNone then pure ()
  else do
    let more ← if resp.accepted then acceptedSnpResp resp else pure true
    let s ← get
    if s.role = .leader ∧ more = true then requestAppendTo resp.src else pure ()

/-- `handle_voting_resp`, raft_server_resp_handlers.cxx 198-239. -/
def handleVotingResp (resp : Resp) : R Unit := do
  let s ← get
  if resp.term ≠ s.term ∨ s.electionCompleted = true ∨ resp.src ∈ s.voted then pure ()
  else do
    modify fun s => { s with voted := resp.src :: s.voted }
    modify fun s => { s with votesGranted := if resp.accepted then s.votesGranted + 1 else s.votesGranted }
    modify fun s => { s with electionCompleted :=
      if s.peers.length + 1 ≤ s.voted.length then true else s.electionCompleted }
    let s ← get
    if (s.peers.length + 1) / 2 < s.votesGranted then do
      modify fun s => { s with electionCompleted := true }
      becomeLeader
    else pure ()

/-- Lines 64-81 of `handle_peer_resp`. -/
def dispatchResp (resp : Resp) : R Unit :=
  match resp.type with
  | .voteResp => handleVotingResp resp
  | .appendResp => handleAppendResp resp
  | .snpResp => handleSnpResp resp
  | _ => die (-1)

/-- `handle_peer_resp` without an error, raft_server_resp_handlers.cxx 32-82. -/
def handlePeerResp (resp : Resp) : R Unit := do
  let s ← get
  if (s.findPeer resp.src).isNone then pure ()
  else do
    modPeer (.member resp.src) fun p => { p with lastResp := s.now }
    let newer ← updateTerm resp.term
    if newer then pure () else dispatchResp resp

/-- `handle_prevote_resp`, raft_server_resp_handlers.cxx 241-276. -/
def handlePrevoteResp (resp : Resp) : R Unit := do
  let s ← get
  match s.prevote with
  | none => pure ()
  | some (v, n) =>
    if resp.src ∈ v then pure ()
    else do
      modify fun s => { s with prevote := some (resp.src :: v, if resp.accepted then n + 1 else n) }
      if (s.peers.length + 1) / 2 < (if resp.accepted then n + 1 else n) then becomeCandidate
      else if s.peers.length + 1 ≤ v.length + 1 then do
        modify fun s => { s with prevote := some ([], 0) }
        restartElectionTimer
      else pure ()

/-- Lines 544-553 of `sync_log_to_new_srv`: the new server has caught up and is put in the configuration. -/
def addToConfig : R Unit := do
  let s ← get
  match s.confToAdd with
  | none => throw .ub
  | some c => do
    logAppend ⟨s.term, .conf ⟨s.log.next, s.config.logIdx, s.config.servers ++ [c]⟩⟩
    modify fun s => { s with configChanging := true }
    requestAppendAll

/-- `log_store_->pack(start, cnt)` for an index that is not below the first one, src/fs_log_store.cxx 528-565: the entries of the pack;
`none`: it throws. Nothing is packed behind the end of the log. Without entries to pack there is no first position to read (553); a
negative `cnt` is added to an unsigned number (534): either the size of the index becomes negative and no buffer can be had for it (537),
or the sum wraps around and everything up to the end of the log is packed. -/
def packOf (l : Log) (start : Nat) (cnt : Int) : Option (List Entry) :=
  if l.next ≤ start then some []
  else if 0 < cnt then some (l.range start (start + cnt.toNat))
  else if cnt < 0 ∧ ((start - l.start : Nat) : Int) + cnt < 0 then some (l.range start l.next)
  else none

/-- `sync_log_to_new_srv`, raft_server_req_handlers.cxx 536-578. `pack` throws below the first index, src/fs_log_store.cxx
518-521. -/
def syncLogToNewSrv (start : Nat) : R Unit := do
  let s ← get
  if toI32 (subU64 s.quickCommit start) < s.params.logSyncGap then addToConfig
  else if 0 < start ∧ start < s.log.start then do
    let req ← createSyncSnapshotReq .joining start s.term s.quickCommit
    emit (.send req)
  else if start < s.log.start then throw .thrown
  else
    match packOf s.log start (min (toI32 (subU64 s.quickCommit start)) s.params.logSyncBatch) with
    | none => throw .thrown
    | some es => do
      let p ← getPeer .joining
      emit (.send { type := .syncReq, term := s.term, src := s.id, dst := p.id, lastTerm := 0, lastIdx := subU64 start 1,
                    commitIdx := s.quickCommit, entries := [⟨s.term, .logPack⟩], pack := es })

/-- `rm_srv_from_cluster`, raft_server_req_handlers.cxx 635-653. -/
def rmSrvFromCluster (id : Int) : R Unit := do
  let s ← get
  modify fun s => { s with configChanging := true }
  logAppend ⟨s.term, .conf ⟨s.log.next, s.config.logIdx, s.config.servers.filter fun x => x.id != id⟩⟩
  requestAppendAll

/-- Lines 335-375 of `handle_ext_resp`: a snapshot block went to the joining server. -/
def handleExtSnpResp (resp : Resp) : R Unit := do
  let s ← get
  match s.srvToJoin with
  | none => pure ()
  | some p =>
    if resp.accepted = false then pure ()
    else
      match p.snpCtx with
      | none => die (-1)
      | some (snp, _) => do
        if snp.size ≤ resp.nextIdx then
          modPeer .joining fun p => { p with snpCtx := none, nextIdx := snp.lastIdx + 1, matched := snp.lastIdx }
        else modPeer .joining fun p => { p with snpCtx := some (snp, resp.nextIdx) }
        let q ← getPeer .joining
        syncLogToNewSrv q.nextIdx

/-- `handle_ext_resp` without an error, raft_server_resp_handlers.cxx 295-385. -/
def handleExtResp (resp : Resp) : R Unit := do
  let s ← get
  match resp.type with
  | .syncResp =>
    match s.srvToJoin with
    | none => pure ()
    | some _ => do
      modPeer .joining (resumeHb s.params)
      modPeer .joining fun p => { p with nextIdx := resp.nextIdx, matched := subU64 resp.nextIdx 1 }
      syncLogToNewSrv resp.nextIdx
  | .joinResp =>
    match s.srvToJoin with
    | none => pure ()
    | some _ => if resp.accepted then syncLogToNewSrv resp.nextIdx else pure ()
  | .leaveResp => if resp.accepted then rmSrvFromCluster resp.src else pure ()
  | .snpResp => handleExtSnpResp resp
  | .prevoteResp => handlePrevoteResp resp
  | _ => die (-1)

/-- Lines 427-445 of `handle_ext_resp_err`: give up waiting for a server that leaves. -/
def forceRemove (id : Int) : R Unit := do
  modify fun s => { s with peers := if s.peers.length = 1 then s.peers.filter fun p => p.id != id else s.peers }
  rmSrvFromCluster id

/-- `handle_ext_resp_err`, raft_server_resp_handlers.cxx 388-466. Scheduling a retry is left out; the retry itself is
`retryReq`. -/
def handleExtErr (req : Req) : R Unit := do
  let s ← get
  match req.type with
  | .leaveReq =>
    match s.findPeer req.dst with
    | none => pure ()
    | some p =>
      if s.params.maxHb ≤ p.hbInterval then forceRemove req.dst
      else modPeer (.member req.dst) (slowDownHb s.params)
  | .syncReq | .joinReq =>
    match s.srvToJoin with
    | none => pure ()
    | some p =>
      if s.params.maxHb ≤ p.hbInterval then
        modify fun s => { s with configChanging := false, srvToJoin := none }
      else modPeer .joining (slowDownHb s.params)
  | _ => pure ()

/-- `on_retryable_req_err`, raft_server_req_handlers.cxx 410-414, scheduled by `handle_ext_resp_err` for requests of these
types only (raft_server_resp_handlers.cxx 392-393, 460-462). -/
def retryReq (req : Req) : R Unit :=
  if req.type = .syncReq ∨ req.type = .joinReq ∨ req.type = .leaveReq then emit (.send req) else pure ()

/-- `peer::handle_rpc_result`, peer.cxx 29-50, first part: the answer (or the failure) of a request to a peer. Simplified: if
the peer does not exist any more nothing happens; in the code this is a use of a freed object (C100). -/
def rpcResult (r : PeerRef) (ty : MsgType) (ok : Bool) : R Unit := do
  let s ← get
  modPeer r fun p => if ty = .appendReq ∨ ty = .snpReq then { p with busy := false } else p
  modPeer r (if ok then resumeHb s.params else slowDownHb s.params)

/-! ## The commit thread -/

/-- Lines 919-937 of `commit_in_bg`: a configuration is committed. -/
def commitConf (c : Config) : R Unit := do
  emit (.saveConfig c)
  modify fun s => { s with configChanging := false }
  let s ← get
  if s.config.logIdx < c.logIdx then reconfigure c else pure ()
  modify fun s => { s with catchingUp := if c.has s.id then false else s.catchingUp }

/-- Lines 561-566 of `snapshot_and_compact`: the last configuration at or before the index. An endless loop is undefined
behaviour. -/
def findConf (idx : Nat) : Nat → Config → R Config
  | 0, _ => throw .ub
  | n + 1, c => do
    let s ← get
    if idx < c.logIdx ∧ s.log.start ≤ c.prevLogIdx then do
      let e ← entryAt c.prevLogIdx
      match e.val with
      | .conf c' => findConf idx n c'
      | _ => throw .thrown
    else pure c

/-- Lines 568-586 of `snapshot_and_compact`. -/
def confForSnap (idx : Nat) : R Config := do
  let s ← get
  let c ← findConf idx (s.log.ents.length + 2) s.config
  if idx < c.logIdx ∧ 0 < c.prevLogIdx ∧ c.prevLogIdx < s.log.start then
    match s.lastSnap with
    | none => die (-1)
    | some snp => pure snp.config
  else if idx < c.logIdx ∧ c.prevLogIdx = 0 then die (-1)
  else pure c

/-- Does `snapshot_and_compact` start a snapshot? Lines 542-555. -/
def wantsSnapshot (s : Srv) (idx : Nat) : Bool :=
  decide (s.params.snpDistance ≠ 0) && decide (s.params.snpDistance ≤ subU64 idx s.log.start) &&
  (match s.lastSnap with | none => true | some l => decide (s.params.snpDistance ≤ subU64 idx l.lastIdx)) &&
  !s.snpInProgress

/-- Lines 560-593 of `snapshot_and_compact`. The state machine gets a snapshot of size 0. -/
def startSnapshot (idx : Nat) : R Unit := do
  let c ← confForSnap idx
  let t ← termAt idx
  emit (.createSnp ⟨idx, t, c, 0⟩)

/-- `snapshot_and_compact`, raft_server.cxx 540-606. -/
def snapshotAndCompact (idx : Nat) : R Unit := do
  let s ← get
  if wantsSnapshot s idx then do
    modify fun s => { s with snpInProgress := true }
    catchThrown (startSnapshot idx) (modify fun s => { s with snpInProgress := false })
  else pure ()

/-- The state machine has finished a snapshot: from now on it answers `last_snapshot` with it (include/state_machine.hxx
38). -/
def keepSnap (snp : Snap) : R Unit := do
  let s ← get
  modify fun s => { s with smSnap := some { snp with size := s.env.snpSize snp } }
  emit (.madeSnp { snp with size := s.env.snpSize snp })

/-- `on_snapshot_completed`, raft_server.cxx 608-636, called by the state machine with the snapshot object it was given. An
exception of `compact` leaves the function before `snp_in_progress_` is reset. -/
def onSnapshotCompleted (snp : Snap) (ok : Bool) : R Unit := do
  if ok then do
    modify fun s => { s with lastSnap := some snp }
    let s ← get
    if s.params.reserved < snp.lastIdx then do
      let _ ← logCompact (snp.lastIdx - s.params.reserved)
    else pure ()
  else pure ()
  modify fun s => { s with snpInProgress := false }

/-- Is there an entry to apply? Line 911. -/
def Srv.canApply (s : Srv) : Bool := decide (s.smCommit < s.quickCommit) && decide (s.smCommit < s.log.next - 1)

/-- Lines 914-937: hand the entry to the state machine, or apply the configuration. -/
def applyEntry (i : Nat) (e : Entry) : R Unit :=
  match e.val with
  | .app _ => emit (.commit i e)
  | .conf c => commitConf c
  | _ => pure ()

/-- One iteration of the loop of `commit_in_bg`, raft_server.cxx 911-940. The thread holds `lock_` only while a
configuration is applied; here the iteration is one step. -/
def applyOne : R Unit := do
  let s ← get
  if s.canApply then do
    modify fun s => { s with smCommit := s.smCommit + 1 }
    let e ← entryToApply (s.smCommit + 1)
    applyEntry (s.smCommit + 1) e
    snapshotAndCompact (s.smCommit + 1)
  else pure ()

/-! ## Calls of the application -/

/-- `replicate_log`, raft_server.cxx 1080-1100, when no other thread interferes. -/
def replicateLog (data : Nat) : R Bool := do
  let leader ← isLeader
  if leader then do
    let s ← get
    logAppend ⟨s.term, .app data⟩
    requestAppendAll
    pure false
  else pure false

/-! ## Inputs -/

/-- What can happen to a running server. -/
inductive Input where
  /-- a request arrives -/
  | req (r : Req)
  /-- the answer to a request of type `ty` arrives, handled by `resp_handler_` -/
  | peerResp (ty : MsgType) (r : Resp)
  /-- the same for `ex_resp_handler_` -/
  | extResp (p : PeerRef) (ty : MsgType) (r : Resp)
  /-- a request handled by `resp_handler_` failed -/
  | peerErr (r : Req)
  /-- a request handled by `ex_resp_handler_` failed -/
  | extErr (p : PeerRef) (r : Req)
  /-- a failed request is sent again -/
  | retry (r : Req)
  /-- the election timer expires -/
  | electionTimeout
  /-- the heartbeat timer of a peer expires -/
  | hbTimeout (id : Int)
  /-- one iteration of the commit thread -/
  | apply
  /-- the state machine has finished (or failed) a snapshot -/
  | snapDone (snp : Snap) (ok : Bool)
  /-- the application calls `replicate_log` -/
  | replicate (data : Nat)
  /-- time passes -/
  | tick (now : Nat)
  deriving DecidableEq, Repr

/-- The code that runs. -/
def Input.run : Input → R Unit
  | .req r => do
    let resp ← processReq r
    emit (.reply resp)
  | .peerResp ty r => do
    rpcResult (.member r.src) ty true
    handlePeerResp r
  | .extResp p ty r => do
    rpcResult p ty true
    handleExtResp r
  | .peerErr r => rpcResult (.member r.dst) r.type false
  | .extErr p r => do
    rpcResult p r.type false
    handleExtErr r
  | .retry r => retryReq r
  | .electionTimeout => handleElectionTimeout
  | .hbTimeout id => handleHbTimeout (.member id)
  | .apply => applyOne
  | .snapDone snp ok =>
    if ok then do
      keepSnap snp
      onSnapshotCompleted snp true
    else onSnapshotCompleted snp false
  | .replicate d => do
    let _ ← replicateLog d
    pure ()
  | .tick now => modify fun s => { s with now := now }

/-! ## Start -/

/-- What survives a crash: saved term and vote, saved configuration, the log, and what the application's state machine
keeps. -/
structure Disk where
  term : Nat := 0
  vote : Int := -1
  config : Config
  log : Log := ⟨1, []⟩
  applied : Nat := 0
  snap : Option Snap := none
  deriving DecidableEq, Repr

/-- Effect of one step on the disk. The state machine of the application keeps applied entries (`commit`) and the snapshot
(`apply_snapshot`). -/
def Disk.after (d : Disk) : Eff → Disk
  | .saveState t v => { d with term := t, vote := v }
  | .saveConfig c => { d with config := c }
  | .append e => { d with log := d.log.append e }
  | .writeAt i e => { d with log := d.log.replaceFrom i [e] }
  | .applyPack i es => { d with log := d.log.replaceFrom i es }
  | .compact i => { d with log := d.log.compact i }
  | .commit i _ => { d with applied := i }
  | .applySnp s => { d with snap := some s, applied := s.lastIdx }
  | .madeSnp s => { d with snap := some s }
  | _ => d

/-- The disk after a list of effects. -/
def Disk.afterAll (d : Disk) (es : List Eff) : Disk := es.foldl Disk.after d

/-- Lines 128-139 of the constructor: the other servers of the saved configuration. `insert` does nothing if the id is there
already. -/
def bootPeer (id : Int) (pr : Params) (ps : List Peer) (c : SrvCfg) : List Peer :=
  if c.id = id ∨ (ps.find? (·.id == c.id)).isSome then ps else ps ++ [{ cfg := c, hbInterval := pr.hbInterval }]

/-- The constructor of `raft_server`, raft_server.cxx 49-145. `config_changing_` is set if the log has a configuration
entry that is not applied yet (117-126). Peers are the other servers of the saved configuration (128-139). -/
def boot (id : Int) (pr : Params) (env : Env) (d : Disk) : Srv :=
  { id := id, quickCommit := d.applied, smCommit := d.applied, params := pr, env := env, term := d.term, vote := d.vote,
    log := d.log, config := d.config, lastSnap := d.snap, smSnap := d.snap, armed := true,
    configChanging := (d.log.ents.drop (max (d.applied + 1) d.log.start - d.log.start)).any Entry.isConf,
    peers := d.config.servers.foldl (bootPeer id pr) [] }

end Cs.Raft
