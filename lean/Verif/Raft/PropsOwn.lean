import Verif.Raft.Own

/-!
# Only leaders create entries

C83. An entry of a log was made by a leader; other servers only store what they are sent.
-/

namespace Cs.Raft
open Cs

/-- Requests that bring entries of another server: append requests, and packs for a server that joins. -/
def Input.brings : Input → Prop
  | .req r => r.type = .appendReq ∨ r.type = .syncReq
  | _ => False

/-- The answer to a request of a membership change, or its failure. -/
def Input.onChange : Input → Prop
  | .extResp _ _ r => r.type ≠ .prevoteResp
  | .extErr _ _ => True
  | _ => False

/-- New entries are those of a leader and carry its term. -/
def NewByLeader (s s' : Srv) : Prop :=
  ∀ k e, s'.log.get? k = some e → s.log.get? k = some e ∨ (s'.role = .leader ∧ e.term = s'.term)

theorem nbl_owned {α : Type} {m : R α} (h : Pres Owned m) : Pres NewByLeader m := fun s => (h s).2
theorem nbl_noNew {α : Type} {m : R α} (h : Pres NoNew m) : Pres NewByLeader m := fun s k e hk => .inl (h s k e hk)

theorem NewByLeader.after {a b c : Srv} (h : NoNew a b) (g : NewByLeader b c) : NewByLeader a c := fun k e hk => by
  rcases g k e hk with h' | h'
  · exact .inl (h k e h')
  · exact .inr h'

theorem NewByLeader.before {a b c : Srv} (h : NewByLeader a b) (g : Owned b c) : NewByLeader a c := fun k e hk => by
  rcases g.2 k e hk with h' | h'
  · rcases h k e h' with h'' | ⟨h1, h2⟩
    · exact .inl h''
    · exact .inr ⟨(g.1 h1).1, h2.trans (g.1 h1).2.symm⟩
  · exact .inr h'

theorem nbl_after {α β : Type} {m : R α} {k : α → R β} (h1 : Pres NoNew m) (h2 : ∀ a, Pres NewByLeader (k a)) :
    Pres NewByLeader (m >>= k) := by
  intro s
  have e1 := h1 s
  rw [run_bind]
  rcases hm : m s with ⟨a | a, s'⟩
  · rw [hm] at e1; exact fun k e hk => .inl (e1 k e hk)
  · rw [hm] at e1; exact .after e1 (h2 a s')

theorem nbl_before {α β : Type} {m : R α} {k : α → R β} (h1 : Pres NewByLeader m) (h2 : ∀ a, Pres Owned (k a)) :
    Pres NewByLeader (m >>= k) := by
  intro s
  have e1 := h1 s
  rw [run_bind]
  rcases hm : m s with ⟨a | a, s'⟩
  · rw [hm] at e1; exact e1
  · rw [hm] at e1; exact .before e1 (h2 a s')

theorem kp_rpcResult (r : PeerRef) (ty : MsgType) (ok : Bool) : Pres NoNew (rpcResult r ty ok) := by
  unfold rpcResult
  pres noNewPo using kp_modPeer

theorem nbl_becomeCandidate : Pres NewByLeader becomeCandidate := by
  unfold becomeCandidate
  exact nbl_after kp_startTerm fun _ => nbl_owned (pres_bind ownedPo ol_requestVote fun _ => ol_rearm)

theorem nbl_get {β : Type} {k : Srv → R β} (h : ∀ s, Pres NewByLeader (k s)) : Pres NewByLeader (get >>= k) := fun s => h s s
theorem nbl_ite {α : Type} {c : Prop} [Decidable c] {a b : R α} (h1 : Pres NewByLeader a) (h2 : Pres NewByLeader b) :
    Pres NewByLeader (if c then a else b) := by split <;> assumption

theorem nbl_requestPrevote : Pres NewByLeader requestPrevote := by
  unfold requestPrevote
  refine nbl_get fun s => nbl_ite nbl_becomeCandidate (nbl_owned ?_)
  pres ownedPo using ol_peerIds, ol_askVote
  all_goals ols

theorem nbl_handleElectionTimeout : Pres NewByLeader handleElectionTimeout := by
  unfold handleElectionTimeout
  refine nbl_after (kp_mod fun _ => rfl) fun _ => nbl_get fun s => nbl_ite (nbl_noNew ?_) (nbl_ite (nbl_noNew kp_restartElectionTimer)
    (nbl_ite (nbl_noNew (kp_die _)) (nbl_ite (nbl_ite (nbl_noNew (pres_pure noNewPo _)) nbl_requestPrevote) nbl_becomeCandidate)))
  pres noNewPo using kp_leaveConfig, kp_die, kp_restartElectionTimer
  all_goals kps

theorem nbl_handlePrevoteResp (r : Resp) : Pres NewByLeader (handlePrevoteResp r) := by
  unfold handlePrevoteResp
  refine nbl_get fun s => ?_
  split
  · exact nbl_noNew (pres_pure noNewPo _)
  · refine nbl_ite (nbl_noNew (pres_pure noNewPo _)) (nbl_after (kp_mod fun _ => rfl) fun _ => nbl_ite nbl_becomeCandidate (nbl_noNew ?_))
    pres noNewPo using kp_restartElectionTimer
    all_goals kps

theorem nbl_handleInstallSnapshot (r : Req) : Pres NewByLeader (handleInstallSnapshot r) := by
  unfold handleInstallSnapshot
  refine nbl_after (kp_hearSnapshotLeader r) fun _ => nbl_owned ?_
  pres ownedPo using ol_handleSnapshotSync

theorem nbl_handleJoin (r : Req) : Pres NewByLeader (handleJoin r) := by
  unfold handleJoin
  refine nbl_get fun s => ?_
  split
  · refine nbl_ite (nbl_noNew (pres_pure noNewPo _)) (nbl_after (kp_mod fun _ => rfl) fun _ => nbl_after (kp_mod fun _ => rfl) fun _ =>
      nbl_after (kp_mod fun _ => rfl) fun _ => nbl_after kp_saveState fun _ => nbl_owned ?_)
    pres ownedPo using ol_reconfigure
  · exact nbl_noNew (pres_pure noNewPo _)

theorem isLeader_true {s s' : Srv} (h : isLeader s = (.ok true, s')) : s.role = .leader := by
  unfold isLeader at h
  rw [bind_get] at h
  by_cases hl : s.role = .leader
  · exact hl
  · rw [if_neg (fun hc => hl hc.1)] at h
    have : decide (s.role = .leader) = true := by
      have h2 : (Except.ok (decide (s.role = .leader)) : Except Fault Bool) = .ok true := congrArg Prod.fst h
      injection h2
    exact of_decide_eq_true this

/-- What follows `is_leader()` if it says yes is done by a leader. -/
theorem nbl_asLeader {β : Type} {k : Bool → R β} (h1 : Pres Owned (k false)) (h2 : Pres OwnedL (k true)) :
    Pres NewByLeader (isLeader >>= k) := by
  intro s
  have e1 := ol_isLeader s
  rw [run_bind]
  rcases hm : isLeader s with ⟨a | a, s'⟩
  · rw [hm] at e1; exact e1.2
  · rw [hm] at e1
    cases a with
    | false => exact (ownedPo.trans e1 (h1 s')).2
    | true => exact (ownedPo.trans e1 (h2 s' (e1.1 (isLeader_true hm)).1)).2

theorem nbl_handleCliReq (r : Req) : Pres NewByLeader (handleCliReq r) := by
  unfold handleCliReq
  refine nbl_asLeader ?_ ?_
  · refine pres_bind ownedPo (pres_get ownedPo) fun s => ?_
    rw [if_pos (rfl : (false : Bool) = false)]
    exact pres_ite (pres_pure ownedPo _) (pres_pure ownedPo _)
  · refine pres_bind ownedLPo (pres_get ownedLPo) fun s => ?_
    pres ownedLPo using ll_appendClient, ownedL_of ol_requestAppendAll

theorem nbl_replicateLog (d : Nat) : Pres NewByLeader (replicateLog d) := by
  unfold replicateLog
  refine nbl_asLeader ?_ ?_
  · exact pres_pure ownedPo _
  · intro s hs
    have h := ol_requestAppendAll { s with log := s.log.append ⟨s.term, .app d⟩, trace := s.trace ++ [.append ⟨s.term, .app d⟩] }
    have g : Pres Owned (do requestAppendAll; pure false : R Bool) := pres_bind ownedPo ol_requestAppendAll fun _ => pres_pure ownedPo _
    exact ownedPo.trans (owned_add (s' := { s with log := s.log.append ⟨s.term, .app d⟩, trace := s.trace ++ [.append ⟨s.term, .app d⟩] })
      (e := ⟨s.term, .app d⟩) hs rfl rfl rfl rfl) (g _)

theorem nbl_dispatch (r : Req) (h1 : r.type ≠ .appendReq) (h2 : r.type ≠ .syncReq) : Pres NewByLeader (dispatch r) := by
  unfold dispatch
  split
  · exact absurd ‹_› h1
  · exact nbl_owned (ol_handleVoteReq r)
  · exact nbl_handleCliReq r
  · unfold handleExtended
    split
    · exact nbl_owned (ol_handleAddSrv r)
    · exact nbl_owned (ol_handleRmSrv r)
    · exact absurd ‹_› h2
    · exact nbl_handleJoin r
    · exact nbl_owned (ol_handleLeave r)
    · exact nbl_handleInstallSnapshot r
    · exact nbl_owned (ol_handlePrevoteReq r)
    · exact nbl_owned (ol_die _)

theorem nbl_handlePeerResp (r : Resp) : Pres NewByLeader (handlePeerResp r) := by
  unfold handlePeerResp
  exact nbl_get fun s => nbl_ite (nbl_noNew (pres_pure noNewPo _)) (nbl_after (kp_modPeer _ _) fun _ =>
    nbl_after (kp_updateTerm _) fun b => nbl_ite (nbl_noNew (pres_pure noNewPo _)) (nbl_owned (ol_dispatchResp r)))

theorem ll_rpcResult (r : PeerRef) (ty : MsgType) (ok : Bool) : Pres OwnedL (rpcResult r ty ok) := ownedL_of (ol_rpcResult r ty ok)

theorem ll_handleExtResp (r : Resp) (h : r.type ≠ .prevoteResp) : Pres OwnedL (handleExtResp r) := by
  unfold handleExtResp
  refine pres_bind ownedLPo (pres_get ownedLPo) fun s => ?_
  split
  · pres ownedLPo using ll_modPeer, ll_syncLogToNewSrv
  · pres ownedLPo using ll_syncLogToNewSrv
  · pres ownedLPo using ll_rmSrvFromCluster
  · exact ll_handleExtSnpResp r
  · exact absurd ‹_› h
  · exact lo_die _

/-- C83: whatever a server handles, if an entry appears in its log that was not there before, then the server is leader and the
entry carries its term, unless the entries came with an append request or a pack.
Missing: answers to the requests of a membership change that arrive when the server is not leader any more
(`late_answer_appends`, `late_answer_hides_command`). -/
theorem only_leader_adds_partial (s : Srv) (x : Input) (h1 : ¬x.brings) (h2 : x.onChange → s.role = .leader) :
    NewByLeader s (x.run s).2 := by
  cases x with
  | req r =>
    have h3 : r.type ≠ .appendReq := fun h => h1 (.inl h)
    have h4 : r.type ≠ .syncReq := fun h => h1 (.inr h)
    have h : Pres NewByLeader (processReq r) := nbl_after (kp_hearTerm r) fun _ => nbl_dispatch r h3 h4
    exact nbl_before h (fun a => ol_emit _) s
  | peerResp ty r => exact nbl_after (kp_rpcResult _ _ _) (fun _ => nbl_handlePeerResp r) s
  | extResp p ty r =>
    by_cases hr : r.type = .prevoteResp
    · refine nbl_after (kp_rpcResult _ _ _) (fun _ => ?_) s
      have : Pres NewByLeader (handleExtResp r) := by
        unfold handleExtResp
        refine nbl_get fun s => ?_
        rw [hr]
        exact nbl_handlePrevoteResp r
      exact this
    · exact (pres_bind ownedLPo (ll_rpcResult _ _ _) (fun _ => ll_handleExtResp r hr) s (h2 hr)).2
  | peerErr r => exact (ol_rpcResult _ _ _ s).2
  | extErr p r => exact (pres_bind ownedLPo (ll_rpcResult _ _ _) (fun _ => ll_handleExtErr r) s (h2 trivial)).2
  | retry r => exact (ol_retryReq r s).2
  | electionTimeout => exact nbl_handleElectionTimeout s
  | hbTimeout i => exact (ol_handleHbTimeout _ s).2
  | apply => exact (ol_applyOne s).2
  | snapDone snp ok =>
    cases ok with
    | true => exact (pres_bind ownedPo (ol_keepSnap snp) (fun _ => ol_onSnapshotCompleted snp true) s).2
    | false => exact (ol_onSnapshotCompleted snp false s).2
  | replicate d => exact nbl_before (nbl_replicateLog d) (fun _ => pres_pure ownedPo _) s
  | tick now => exact fun k e hk => .inl hk

/-- The hypotheses are met and new entries appear: a leader stores a command. -/
example : ∃ d s fx, Hist node1 (Node.fresh conf3) (electScript.flatMap Move.input) fx ⟨d, some s⟩ ∧ ¬(Input.replicate 9).brings ∧
    ((Input.replicate 9).onChange → s.role = .leader) ∧
    (((Input.replicate 9).run s).2.log.get? 2, s.log.get? 2) = (some ⟨1, .app 9⟩, none) := by
  obtain ⟨⟨d, up⟩, fx, h, hp⟩ := Node.witness (c := node1) (n := Node.fresh conf3) electScript
    (fun n _ => match n.up with
      | some s => decide ((((Input.replicate 9).run s).2.log.get? 2, s.log.get? 2) = (some ⟨1, .app 9⟩, none))
      | none => false) (by decide +kernel)
  cases up with
  | none => cases hp
  | some s => exact ⟨d, s, fx, h, fun h => h, fun h => h.elim, of_decide_eq_true hp⟩

/-- C83 fails: a server that is no leader any more gets the answer of a server it has asked to leave. It puts a configuration in
its log, with the term of the present leader. -/
theorem late_answer_appends (s : Srv) (p : PeerRef) (ty : MsgType) (r : Resp) (hr : r.type = .leaveResp) (ha : r.accepted = true) :
    ((Input.extResp p ty r).run s).2.log =
      s.log.append ⟨s.term, .conf ⟨s.log.next, s.config.logIdx, s.config.servers.filter fun x => x.id != r.src⟩⟩ := by
  have h1 : rpcResult p ty true s = (.ok ⟨⟩, (rpcResult p ty true s).2) := rfl
  have h2 : (rpcResult p ty true s).2.log = s.log ∧ (rpcResult p ty true s).2.term = s.term ∧
      (rpcResult p ty true s).2.config = s.config := by cases p <;> exact ⟨rfl, rfl, rfl⟩
  have h3 : (Input.extResp p ty r).run s = handleExtResp r (rpcResult p ty true s).2 := by
    show (rpcResult p ty true >>= fun _ => handleExtResp r) s = _
    rw [run_bind_ok h1]
  rw [h3]
  generalize (rpcResult p ty true s).2 = t at h2
  have h4 : handleExtResp r t = rmSrvFromCluster r.src t := by
    unfold handleExtResp
    rw [bind_get]
    simp only [hr, ha, if_true]
  rw [h4, ← h2.1, ← h2.2.1, ← h2.2.2]
  exact sameLog_requestAppendAll _

/-- The history of `late_answer_hides_command`: server 1 leads term 1 and asks server 3 to leave. Server 2 becomes leader of term 2
and is heard. Then the answer of server 3 arrives. Server 2 sends the command 9 for index 2 and tells that it is committed. -/
def lateAnswer : List Move :=
  electScript ++ [.go (.req (rmReqOf 3)), .go (.req (appendReqOf 2 2 1 1 [] 1)), .go (leftOf 3),
    .go (.req (appendReqOf 2 2 1 1 [⟨2, .app 9⟩] 2)), .go .apply]

/-- What follows from it: the configuration has the index and the term of a command of the leader. The server takes the command for
the entry it has, answers that it has stored it, and applies the removal of server 3 instead of the command. -/
theorem late_answer_hides_command :
    ∃ d s fx, Hist node1 (Node.fresh conf3) (lateAnswer.flatMap Move.input) fx ⟨d, some s⟩ ∧
      .reply { type := .appendResp, term := 2, src := 1, dst := 2, nextIdx := 3, accepted := true } ∈ fx ∧
      s.smCommit = 2 ∧ s.log.get? 2 = some ⟨2, .conf ⟨2, 1, [⟨1, 1⟩, ⟨2, 2⟩]⟩⟩ ∧ (∀ i e, .commit i e ∉ fx) ∧
      s.peers.map Peer.id = [2] := by
  obtain ⟨⟨d, up⟩, fx, h, hp⟩ := Node.witness (c := node1) (n := Node.fresh conf3) lateAnswer
    (fun n fx => match n.up with
      | some s => decide (.reply { type := .appendResp, term := 2, src := 1, dst := 2, nextIdx := 3, accepted := true } ∈ fx) &&
          decide (s.smCommit = 2) && decide (s.log.get? 2 = some ⟨2, .conf ⟨2, 1, [⟨1, 1⟩, ⟨2, 2⟩]⟩⟩) &&
          fx.all (fun e => match e with | .commit _ _ => false | _ => true) && decide (s.peers.map Peer.id = [2])
      | none => false) (by decide +kernel)
  cases up with
  | none => cases hp
  | some s =>
    simp only [Bool.and_eq_true] at hp
    obtain ⟨⟨⟨⟨h1, h2⟩, h3⟩, h4⟩, h5⟩ := hp
    refine ⟨d, s, fx, h, of_decide_eq_true h1, of_decide_eq_true h2, of_decide_eq_true h3, fun i e hm => ?_, of_decide_eq_true h5⟩
    have := List.all_eq_true.1 h4 _ hm
    cases this

end Cs.Raft
