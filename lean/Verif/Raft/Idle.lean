import Verif.Raft.Advance

/-!
# Inputs that do not raise the commit index

A server with peers raises its commit index only when it handles an append request or a positive answer to one.
-/

namespace Cs.Raft
open Cs

/-- The commit index was not raised, and there still are peers. Nothing is said about servers without peers. -/
def Idle (s s' : Srv) : Prop :=
  s.peers ≠ [] → s'.peers ≠ [] ∧ ∃ es, s'.trace = s.trace ++ es ∧ ∀ n, Eff.advance n ∉ es

theorem ipo : PO Idle := ⟨fun _ h => ⟨h, [], (List.append_nil _).symm, fun _ => List.not_mem_nil⟩, fun h1 h2 h => by
  obtain ⟨p1, e1, t1, n1⟩ := h1 h
  obtain ⟨p2, e2, t2, n2⟩ := h2 p1
  refine ⟨p2, e1 ++ e2, by rw [t2, t1, List.append_assoc], fun n hn => ?_⟩
  rcases List.mem_append.1 hn with h | h
  · exact n1 n h
  · exact n2 n h⟩

theorem Idle.of {s s' : Srv} (h1 : s'.peers = s.peers) (h2 : s'.trace = s.trace) : Idle s s' :=
  fun h => ⟨by rw [h1]; exact h, [], by rw [h2]; simp, fun _ => List.not_mem_nil⟩

theorem Keep.idle {s s' : Srv} (k : Keep s s') : Idle s s' := fun h => by
  refine ⟨fun he => h ?_, k.trace⟩
  have := k.peers
  rw [he] at this
  exact List.map_eq_nil_iff.1 this.symm

theorem i_keep {α : Type} {m : R α} (h : Pres Keep m) : Pres Idle m := fun s => (h s).idle

theorem i_mod {f : Srv → Srv} (h : ∀ s, Idle s (f s)) : Pres Idle (modify f : R PUnit) := h
theorem i_emit {e : Eff} (h : ∀ n, e ≠ .advance n) : Pres Idle (emit e) := i_keep (k_emit h)
theorem i_die {α : Type} (c : Int) : Pres Idle (die c : R α) := i_keep (k_die c)
theorem i_modPeer (r : PeerRef) (f : Peer → Peer) : Pres Idle (modPeer r f) := fun s h => by
  refine ⟨?_, [], ?_, fun _ => List.not_mem_nil⟩
  · cases r with
    | member k => exact fun he => h (List.map_eq_nil_iff.1 he)
    | joining => exact h
  · cases r <;> exact (List.append_nil _).symm
theorem i_peerIds : Pres Idle peerIds := i_keep k_peerIds
theorem i_termForLog (k : Nat) : Pres Idle (termForLog k) := i_keep (k_termForLog k)
theorem i_requestAppend (r : PeerRef) : Pres Idle (requestAppend r) := i_keep (k_requestAppend r)
theorem i_requestAppendTo (k : Int) : Pres Idle (requestAppendTo k) := i_keep (k_requestAppendTo k)
theorem i_refusedResp (r : Resp) : Pres Idle (refusedResp r) := i_keep (refusedResp_keep r)
theorem i_saveState : Pres Idle saveState := fun s h => ⟨h, [_], rfl, fun n hn => (by cases List.mem_singleton.1 hn)⟩
theorem i_restart : Pres Idle restartElectionTimer := by
  unfold restartElectionTimer
  pres ipo using i_mod
  exact .of rfl rfl
theorem i_stop : Pres Idle stopElectionTimer := by
  unfold stopElectionTimer
  pres ipo using i_mod
  exact .of rfl rfl
theorem i_rearm : Pres Idle rearm := by
  unfold rearm
  pres ipo using i_restart
theorem i_enableHb (r : PeerRef) : Pres Idle (enableHb r) := by
  unfold enableHb
  pres ipo using i_modPeer
theorem i_leaderPeer (k : Int) : Pres Idle (leaderPeer k) := by
  unfold leaderPeer
  pres ipo using i_modPeer, i_enableHb
theorem i_becomeFollower : Pres Idle becomeFollower := by
  unfold becomeFollower
  pres ipo using i_mod, i_restart, i_emit
  all_goals first | exact .of rfl rfl | (intro h; cases h) | skip
  intro h
  exact ⟨fun he => h (List.map_eq_nil_iff.1 he), [], (List.append_nil _).symm, fun _ => List.not_mem_nil⟩

/-- With peers, the leader commits nothing by itself. -/
theorem i_requestAppendAll : Pres Idle requestAppendAll := by
  intro s h
  unfold requestAppendAll
  rw [bind_get, if_neg h]
  have : Pres Idle (do
      let ids ← peerIds
      forEach requestAppendTo ids : R Unit) := by
    pres ipo using i_peerIds, i_requestAppendTo
  exact this s h

theorem i_logAppend (e : Entry) : Pres Idle (logAppend e) := fun _ h =>
  ⟨h, [_], rfl, fun n hn => (by cases List.mem_singleton.1 hn)⟩
theorem i_initialConf : Pres Idle initialConf := by
  unfold initialConf
  pres ipo using i_mod, i_logAppend
  all_goals exact .of rfl rfl
theorem i_becomeLeader : Pres Idle becomeLeader := by
  unfold becomeLeader
  pres ipo using i_mod, i_emit, i_stop, i_peerIds, i_leaderPeer, i_initialConf, i_requestAppendAll
  all_goals first | exact .of rfl rfl | (intro h; cases h)
theorem i_updateTerm (t : Nat) : Pres Idle (updateTerm t) := by
  unfold updateTerm
  pres ipo using i_mod, i_saveState, i_becomeFollower
  all_goals exact .of rfl rfl
theorem i_voteSelf : Pres Idle voteSelf := by
  unfold voteSelf
  pres ipo using i_mod, i_saveState
  all_goals exact .of rfl rfl
theorem i_askVote (ty : MsgType) (k : Int) : Pres Idle (askVote ty k) := by
  unfold askVote
  pres ipo using i_termForLog, i_emit
  all_goals (intro h; cases h)
theorem i_askForVotes : Pres Idle askForVotes := by
  unfold askForVotes
  pres ipo using i_mod, i_becomeLeader, i_peerIds, i_askVote
  all_goals exact .of rfl rfl
theorem i_requestVote : Pres Idle requestVote := by
  unfold requestVote
  pres ipo using i_voteSelf, i_askForVotes
theorem i_startTerm : Pres Idle startTerm := by
  unfold startTerm
  pres ipo using i_mod, i_saveState
  all_goals exact .of rfl rfl
theorem i_becomeCandidate : Pres Idle becomeCandidate := by
  unfold becomeCandidate
  pres ipo using i_startTerm, i_requestVote, i_rearm
theorem i_requestPrevote : Pres Idle requestPrevote := by
  unfold requestPrevote
  pres ipo using i_becomeCandidate, i_mod, i_peerIds, i_askVote
  all_goals exact .of rfl rfl
theorem i_leaveConfig : Pres Idle leaveConfig := by
  unfold leaveConfig
  pres ipo using i_mod, i_emit
  all_goals first | exact .of rfl rfl | (intro h; cases h)
theorem i_handleElectionTimeout : Pres Idle handleElectionTimeout := by
  unfold handleElectionTimeout
  pres ipo using i_mod, i_leaveConfig, i_die, i_restart, i_requestPrevote, i_becomeCandidate
  all_goals exact .of rfl rfl
theorem i_handleHbTimeout (r : PeerRef) : Pres Idle (handleHbTimeout r) := by
  unfold handleHbTimeout
  pres ipo using i_modPeer, i_requestAppend
theorem i_handleVoteReq (r : Req) : Pres Idle (handleVoteReq r) := by
  unfold handleVoteReq
  pres ipo using i_mod, i_saveState
  all_goals exact .of rfl rfl
theorem i_handlePrevoteReq (r : Req) : Pres Idle (handlePrevoteReq r) := by
  unfold handlePrevoteReq
  pres ipo using i_mod
theorem i_isLeader : Pres Idle isLeader := by
  unfold isLeader
  pres ipo using i_mod
  all_goals exact .of rfl rfl
theorem i_appendClient : ∀ (es : List Entry), Pres Idle (appendClient es)
  | [] => pres_pure ipo _
  | e :: es => by
    have ih := i_appendClient es
    unfold appendClient
    pres ipo using i_logAppend, i_emit, ih
    all_goals (intro h; cases h)
theorem i_handleCliReq (r : Req) : Pres Idle (handleCliReq r) := by
  unfold handleCliReq
  pres ipo using i_isLeader, i_appendClient, i_requestAppendAll
theorem i_hearTerm (r : Req) : Pres Idle (hearTerm r) := by
  unfold hearTerm
  pres ipo using i_updateTerm, i_mod
  all_goals exact .of rfl rfl
theorem i_rpcResult (p : PeerRef) (ty : MsgType) (ok : Bool) : Pres Idle (rpcResult p ty ok) := by
  unfold rpcResult
  pres ipo using i_modPeer
theorem i_handleVotingResp (r : Resp) : Pres Idle (handleVotingResp r) := by
  unfold handleVotingResp
  pres ipo using i_mod, i_becomeLeader
  all_goals exact .of rfl rfl
theorem i_handleAppendResp {r : Resp} (ha : r.accepted = false) : Pres Idle (handleAppendResp r) := by
  unfold handleAppendResp
  rw [ha]
  simp only [Bool.false_eq_true, if_false]
  pres ipo using i_refusedResp, i_requestAppendTo
theorem i_handlePeerResp {r : Resp} (ht : r.type = .voteResp ∨ r.type = .appendResp ∧ r.accepted = false) :
    Pres Idle (handlePeerResp r) := by
  have hd : Pres Idle (dispatchResp r) := by
    unfold dispatchResp
    rcases ht with h | ⟨h, ha⟩
    · rw [h]; exact i_handleVotingResp r
    · rw [h]; exact i_handleAppendResp ha
  unfold handlePeerResp
  pres ipo using i_modPeer, i_updateTerm
theorem i_handlePrevoteResp (r : Resp) : Pres Idle (handlePrevoteResp r) := by
  unfold handlePrevoteResp
  pres ipo using i_mod, i_becomeCandidate, i_restart
  all_goals exact .of rfl rfl
theorem i_replicateLog (d : Nat) : Pres Idle (replicateLog d) := by
  unfold replicateLog
  pres ipo using i_isLeader, i_logAppend, i_requestAppendAll

/-! ## The commit thread -/

/-- The commit index was not raised. -/
def Dumb (s s' : Srv) : Prop := ∃ es, s'.trace = s.trace ++ es ∧ ∀ n, Eff.advance n ∉ es

theorem dpo : PO Dumb := ⟨fun _ => ⟨[], (List.append_nil _).symm, fun _ => List.not_mem_nil⟩, fun h1 h2 => by
  obtain ⟨e1, t1, n1⟩ := h1
  obtain ⟨e2, t2, n2⟩ := h2
  refine ⟨e1 ++ e2, by rw [t2, t1, List.append_assoc], fun n hn => ?_⟩
  rcases List.mem_append.1 hn with h | h
  · exact n1 n h
  · exact n2 n h⟩

theorem d_mod {f : Srv → Srv} (h : ∀ s, (f s).trace = s.trace) : Pres Dumb (modify f : R PUnit) := fun s =>
  ⟨[], by rw [List.append_nil]; exact h s, fun _ => List.not_mem_nil⟩
theorem d_keep {α : Type} {m : R α} (h : Pres Keep m) : Pres Dumb m := fun s => (h s).trace
theorem d_emit {e : Eff} (h : ∀ n, e ≠ .advance n) : Pres Dumb (emit e) := d_keep (k_emit h)
theorem d_die {α : Type} (c : Int) : Pres Dumb (die c : R α) := d_keep (k_die c)
theorem d_modPeer (r : PeerRef) (f : Peer → Peer) : Pres Dumb (modPeer r f) := by
  unfold modPeer
  pres dpo using d_mod
  cases r <;> rfl
theorem d_enableHb (r : PeerRef) : Pres Dumb (enableHb r) := by
  unfold enableHb
  pres dpo using d_modPeer
theorem d_termAt (k : Nat) : Pres Dumb (termAt k) := d_keep (k_termAt k)
theorem d_entryAt (k : Nat) : Pres Dumb (entryAt k) := by
  unfold entryAt
  pres dpo using d_die
theorem d_entryToApply (k : Nat) : Pres Dumb (entryToApply k) := by
  unfold entryToApply
  pres dpo using d_die, d_entryAt
theorem d_addPeer (c : SrvCfg) : Pres Dumb (addPeer c) := by
  unfold addPeer
  pres dpo using d_mod, d_enableHb, d_modPeer
  all_goals first | rfl | (split <;> rfl)
theorem d_removePeer (c : Config) (k : Int) : Pres Dumb (removePeer c k) := by
  unfold removePeer
  pres dpo using d_mod, d_emit, d_die
  all_goals first | rfl | (intro h; cases h)
theorem d_reconfigure (c : Config) : Pres Dumb (reconfigure c) := by
  unfold reconfigure
  pres dpo using d_mod, d_addPeer, d_removePeer
  all_goals rfl
theorem d_commitConf (c : Config) : Pres Dumb (commitConf c) := by
  unfold commitConf
  pres dpo using d_emit, d_mod, d_reconfigure
  all_goals first | rfl | (intro h; cases h)
theorem d_findConf (i : Nat) : ∀ (n : Nat) (c : Config), Pres Dumb (findConf i n c)
  | 0, _ => pres_throw dpo _
  | n + 1, c => by
    have ih := d_findConf i n
    unfold findConf
    pres dpo using d_entryAt, ih
theorem d_confForSnap (i : Nat) : Pres Dumb (confForSnap i) := by
  unfold confForSnap
  pres dpo using d_findConf, d_die
theorem d_startSnapshot (i : Nat) : Pres Dumb (startSnapshot i) := by
  unfold startSnapshot
  pres dpo using d_confForSnap, d_termAt, d_emit
  all_goals (intro h; cases h)
theorem d_snapshotAndCompact (i : Nat) : Pres Dumb (snapshotAndCompact i) := by
  unfold snapshotAndCompact
  pres dpo using d_mod, d_startSnapshot
  all_goals rfl
theorem d_applyEntry (i : Nat) (e : Entry) : Pres Dumb (applyEntry i e) := by
  unfold applyEntry
  pres dpo using d_emit, d_commitConf
  all_goals (intro h; cases h)
theorem d_applyOne : Pres Dumb applyOne := by
  unfold applyOne
  pres dpo using d_mod, d_entryToApply, d_applyEntry, d_snapshotAndCompact
  all_goals rfl

end Cs.Raft
