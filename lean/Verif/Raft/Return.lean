import Verif.Raft.Spec

/-!
# A state manager whose `system_exit` returns

`state_mgr::system_exit` is implemented by the application (include/state_mgr.hxx 37); the two implementations in tests/src print a line
and return. Nine of its calls are followed by `::exit`, so the process ends all the same. The others are followed by a `return`, or by
nothing. Modelled here: the functions in which that happens, with what they do after the call. The rest of the server is the model of
`Raft/Model.lean`. Not modelled: what handle_snapshot_sync_req does after a `reconfigure` that has returned early, and what vote and append
requests are answered with once `term_for_log` has returned.
-/

namespace Cs.Raft
open Cs

/-- `system_exit`, which returns. -/
def told (code : Int) : R Unit := emit (.exit code)

/-! ## Applying entries -/

/-- Lines 758-784 of `reconfigure`, for one removed server; the answer is whether the function goes on. -/
def removePeerR (c : Config) (id : Int) : R Bool := do
  let s ← get
  if id = s.id ∧ s.catchingUp = false then do
    emit (.saveConfig c)
    told 0
    pure false
  else do
    modify fun s => { s with peers := s.peers.filter fun p => p.id != id }
    pure true

/-- The loop of lines 758-784. -/
def removePeersR (c : Config) : List Int → R Bool
  | [] => pure true
  | id :: ids => do
    let on ← removePeerR c id
    if on then removePeersR c ids else pure false

/-- `reconfigure`, raft_server.cxx 698-787. After line 767 the configuration is not taken over. -/
def reconfigureR (c : Config) : R Unit := do
  let s ← get
  forEach addPeer (c.servers.filter fun x => (s.findPeer x.id).isNone && x.id != s.id)
  let on ← removePeersR c (((s.peers.map Peer.id).filter fun i => !c.has i) ++ if c.has s.id then [] else [s.id])
  if on then modify fun s => { s with config := c } else pure ()

/-- Lines 919-937 of `commit_in_bg`. -/
def commitConfR (c : Config) : R Unit := do
  emit (.saveConfig c)
  modify fun s => { s with configChanging := false }
  let s ← get
  if s.config.logIdx < c.logIdx then reconfigureR c else pure ()
  modify fun s => { s with catchingUp := if c.has s.id then false else s.catchingUp }

/-- Lines 568-586 of `snapshot_and_compact`; `none`: the function has returned (576, 585). -/
def confForSnapR (idx : Nat) : R (Option Config) := do
  let s ← get
  let c ← findConf idx (s.log.ents.length + 2) s.config
  if idx < c.logIdx ∧ 0 < c.prevLogIdx ∧ c.prevLogIdx < s.log.start then
    match s.lastSnap with
    | none => do
      told (-1)
      pure none
    | some snp => pure (some snp.config)
  else if idx < c.logIdx ∧ c.prevLogIdx = 0 then do
    told (-1)
    pure none
  else pure (some c)

/-- Lines 560-593 of `snapshot_and_compact`. -/
def startSnapshotR (idx : Nat) : R Unit := do
  let c ← confForSnapR idx
  match c with
  | none => pure ()
  | some c => do
    let t ← termAt idx
    emit (.createSnp ⟨idx, t, c, 0⟩)

/-- `snapshot_and_compact`, raft_server.cxx 540-606. -/
def snapshotAndCompactR (idx : Nat) : R Unit := do
  let s ← get
  if wantsSnapshot s idx then do
    modify fun s => { s with snpInProgress := true }
    catchThrown (startSnapshotR idx) (modify fun s => { s with snpInProgress := false })
  else pure ()

/-- Which commands the state machine refuses: `commit` throws. In `Raft/Model.lean` it does not; there this is the end of the process. -/
abbrev Refuses := Nat → Entry → Bool

/-- Lines 914-937 of `commit_in_bg`. -/
def applyEntryR (no : Refuses) (i : Nat) (e : Entry) : R Unit :=
  match e.val with
  | .app _ => if no i e then throw .thrown else emit (.commit i e)
  | .conf c => commitConfR c
  | _ => pure ()

/-- Lines 911-940 of `commit_in_bg`, without the handler of exceptions. -/
def applyBodyR (no : Refuses) : R Unit := do
  let s ← get
  if s.canApply then do
    modify fun s => { s with smCommit := s.smCommit + 1 }
    let e ← entryAt (s.smCommit + 1)
    applyEntryR no (s.smCommit + 1) e
    snapshotAndCompactR (s.smCommit + 1)
  else pure ()

/-- One iteration of `commit_in_bg`, raft_server.cxx 884-949: after the handler of exceptions (942-947) the loop goes on. -/
def applyOneR (no : Refuses) : R Unit := catchThrown (applyBodyR no) (told (-1))

/-! ## Timers -/

/-- `handle_election_timeout`, raft_server.cxx 174-236. -/
def handleElectionTimeoutR : R Unit := do
  modify fun s => { s with armed := false }
  let s ← get
  if 0 < s.stepsToDown then do
    modify fun s => { s with stepsToDown := s.stepsToDown - 1 }
    if s.stepsToDown - 1 = 0 then do
      leaveConfig
      told (-1)
    else restartElectionTimer
  else if s.catchingUp then restartElectionTimer
  else if s.role = .leader then told (-1)
  else if s.params.prevote ∧ s.role = .follower then
    if (match s.prevote with | some (v, _) => !v.isEmpty | none => false) then pure ()
    else requestPrevote
  else becomeCandidate

/-! ## Requests -/

/-- `term_for_log`, raft_server.cxx 859-880: after the call the snapshot is used (879). -/
def termForLogR (i : Nat) : R Nat := do
  let s ← get
  if i = 0 then pure 0
  else if s.log.start ≤ i then termAt i
  else
    match s.smSnap with
    | some snp => do
      if i ≠ snp.lastIdx then told (-1) else pure ()
      pure snp.lastTerm
    | none => do
      told (-1)
      throw .ub

/-- Lines 805-828 of `create_sync_snapshot_req`; the answer is whether the function goes on. -/
def chooseSnapR (r : PeerRef) (lastIdx : Nat) : R Bool := do
  let s ← get
  let p ← getPeer r
  if (match p.snpCtx with
      | none => true
      | some (snp, _) => match s.lastSnap with
        | some l => decide (snp.lastIdx < l.lastIdx)
        | none => false) then
    match s.lastSnap with
    | none => throw .ub
    | some snp =>
      if snp.lastIdx < lastIdx then do
        told (-1)
        pure false
      else if snp.size < 1 then do
        told (-1)
        pure false
      else do
        modPeer r fun p => { p with snpCtx := some (snp, 0) }
        pure true
  else pure true

/-- Lines 829-857 of `create_sync_snapshot_req`; `none` is a null pointer. -/
def blockReqR (r : PeerRef) (term commitIdx : Nat) : R (Option Req) := do
  let s ← get
  let p ← getPeer r
  match p.snpCtx with
  | none => throw .ub
  | some (snp, offset) =>
    if min (blockSize s.params) (toI32 (subU64 snp.size offset)) < 0 then throw .thrown
    else
      if s.env.short snp offset (min (blockSize s.params) (toI32 (subU64 snp.size offset))).toNat then do
        told (-1)
        pure none
      else
        pure (some { type := .snpReq, term := term, src := s.id, dst := p.id, lastTerm := snp.lastTerm,
                     lastIdx := snp.lastIdx, commitIdx := commitIdx, entries := [⟨term, .snpSync⟩],
                     sync := some ⟨snp, offset,
                 s.env.block snp offset (min (blockSize s.params) (toI32 (subU64 snp.size offset))).toNat,
                 decide (snp.size ≤ offset + (min (blockSize s.params) (toI32 (subU64 snp.size offset))).toNat)⟩ })

/-- `create_sync_snapshot_req`, raft_server.cxx 795-857; `none` is a null pointer. -/
def createSyncSnapshotReqR (r : PeerRef) (lastIdx term commitIdx : Nat) : R (Option Req) := do
  let on ← chooseSnapR r lastIdx
  if on then blockReqR r term commitIdx else pure none

/-- Lines 678-695 of `create_append_entries_req`. -/
def appendReqFromR (r : PeerRef) (last : Nat) : R (Option Req) := do
  let t ← termForLogR last
  let es ← entriesFrom last
  let s ← get
  let p ← getPeer r
  pure (some { type := .appendReq, term := s.term, src := s.id, dst := p.id, lastTerm := t, lastIdx := last,
               commitIdx := s.quickCommit, entries := es })

/-- `create_append_entries_req`, raft_server.cxx 638-696; `none` is a null pointer. -/
def createAppendReqR (r : PeerRef) : R (Option Req) := do
  let s ← get
  modPeer r fun p => if p.nextIdx = 0 then { p with nextIdx := s.log.next } else p
  let p ← getPeer r
  if s.log.next ≤ p.nextIdx - 1 then do
    told (-1)
    pure none
  else if 0 < p.nextIdx - 1 ∧ p.nextIdx - 1 < s.log.start - 1 then
    createSyncSnapshotReqR r (p.nextIdx - 1) s.term s.quickCommit
  else appendReqFromR r (p.nextIdx - 1)

/-- `peer::send_req`, src/peer.cxx 21-27, with a client of `asio_service`, which takes the entries of the request (src/asio_service.cxx
432) whether there is one or not. -/
def sendR : Option Req → R Unit
  | none => throw .ub
  | some r => emit (.send r)

/-- `request_append_entries(peer&)`, raft_server.cxx 360-371. -/
def requestAppendR (r : PeerRef) : R Bool := do
  let p ← getPeer r
  if p.busy then pure false
  else do
    modPeer r fun p => { p with busy := true }
    let req ← createAppendReqR r
    sendR req
    pure true

/-! ## Histories -/

/-- The code that runs, for the inputs whose handlers can go on after the call. -/
def Input.runR (no : Refuses) : Input → R Unit
  | .electionTimeout => handleElectionTimeoutR
  | .apply => applyOneR no
  | x => x.run

/-- One step of a running server. If its handler ends the process (`::exit`, undefined behaviour) there is none. -/
inductive Node.StepR (no : Refuses) (c : Setup) : Node → Option Input → List Eff → Node → Prop
  /-- an input is handled -/
  | run {d : Disk} {s s' : Srv} {x : Input} :
      x.runR no { s with trace := [] } = (.ok ⟨⟩, s') → StepR no c ⟨d, some s⟩ (some x) s'.trace ⟨d.afterAll s'.trace, some s'⟩
  /-- the server is started -/
  | boot {d : Disk} : StepR no c ⟨d, none⟩ none [] ⟨d, some (boot c.id c.params c.env d)⟩

/-- Histories of a server whose state manager returns from `system_exit`. -/
inductive HistR (no : Refuses) (c : Setup) (n : Node) : List Input → List Eff → Node → Prop
  | nil : HistR no c n [] [] n
  | step {n1 n2 : Node} {xs : List Input} {fx es : List Eff} {x : Option Input} :
      HistR no c n xs fx n1 → n1.StepR no c x es n2 → HistR no c n (xs ++ x.toList) (fx ++ es) n2

end Cs.Raft
