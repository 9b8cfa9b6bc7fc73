import Verif.Raft.Crown
import Verif.Raft.PropsOwn
import Verif.Raft.Frame

/-!
# Who sends append and snapshot requests

A server sends append and snapshot requests of a term only after it has announced that it took the lead of this term.
-/

namespace Cs.Raft
open Cs

/-- Is the effect an append or a snapshot request? -/
def Eff.feeds : Eff → Bool
  | .send m => m.type == .appendReq || m.type == .snpReq
  | _ => false

theorem feeds_send {m : Req} (h : isRepl m.type) : (Eff.send m).feeds = true := by
  show (m.type == .appendReq || m.type == .snpReq) = true
  rcases h with h | h <;> rw [h] <;> rfl

/-- Role and term stay, and no append or snapshot request is sent. -/
def Unfed (s s' : Srv) : Prop := s'.role = s.role ∧ s'.term = s.term ∧ ∃ es, s'.trace = s.trace ++ es ∧ ∀ e ∈ es, e.feeds = false

/-- A server that is leader afterwards was leader of this term, or has announced it; and it was leader of the term of every append
or snapshot request that it sends, or has announced it before. -/
def Snd (s s' : Srv) : Prop := ∃ es, s'.trace = s.trace ++ es ∧
  (s'.role = .leader → (s.role = .leader ∧ s'.term = s.term) ∨ .lead s'.term ∈ es) ∧
  ∀ l m, l ++ [.send m] <+: es → isRepl m.type → (s.role = .leader ∧ m.term = s.term) ∨ .lead m.term ∈ l

/-- The same for what is done by a leader, which stays leader of its term. -/
def SndL (s s' : Srv) : Prop := s.role = .leader → s'.role = .leader ∧ s'.term = s.term ∧ Snd s s'

theorem unfedPo : PO Unfed where
  refl s := ⟨rfl, rfl, [], (List.append_nil _).symm, fun _ h => absurd h List.not_mem_nil⟩
  trans := by
    rintro a b c ⟨r1, t1, es, h1, h2⟩ ⟨r2, t2, fs, h3, h4⟩
    refine ⟨r2.trans r1, t2.trans t1, es ++ fs, by rw [h3, h1, List.append_assoc], fun e he => ?_⟩
    rcases List.mem_append.1 he with he | he
    · exact h2 e he
    · exact h4 e he

/-- A prefix that ends in the second part. -/
theorem ends_in {l es fs : List Eff} {e : Eff} (h : l ++ [e] <+: es ++ fs) :
    l ++ [e] <+: es ∨ ∃ k, l = es ++ k ∧ k ++ [e] <+: fs := by
  obtain ⟨t, h⟩ := h
  rcases List.append_eq_append_iff.1 h with ⟨a, h1, h2⟩ | ⟨c, h1, h2⟩
  · exact .inl ⟨a, h1.symm⟩
  · rcases List.eq_nil_or_concat c with hc | ⟨k, y, hc⟩
    · subst hc
      rw [List.append_nil] at h1
      exact .inl (h1 ▸ List.prefix_refl _)
    · rw [List.concat_eq_append] at hc
      subst hc
      rw [← List.append_assoc] at h1
      have h3 := List.append_inj' h1 rfl
      have h4 : e = y := (List.cons.inj h3.2).1
      exact .inr ⟨k, h3.1, ⟨t, h4 ▸ h2.symm⟩⟩

theorem sent_mem {l es : List Eff} {e : Eff} (h : l ++ [e] <+: es) : e ∈ es :=
  h.subset (List.mem_append_right _ (List.mem_singleton.2 rfl))

theorem sndPo : PO Snd where
  refl s := ⟨[], (List.append_nil _).symm, fun h => .inl ⟨h, rfl⟩, fun _ _ h => absurd (sent_mem h) List.not_mem_nil⟩
  trans := by
    rintro a b c ⟨es, h1, h2, h3⟩ ⟨fs, h4, h5, h6⟩
    refine ⟨es ++ fs, by rw [h4, h1, List.append_assoc], fun h => ?_, fun l m hm hr => ?_⟩
    · rcases h5 h with ⟨h7, h8⟩ | h7
      · rcases h2 h7 with ⟨h9, h10⟩ | h9
        · exact .inl ⟨h9, h8.trans h10⟩
        · exact .inr (List.mem_append_left _ (h8 ▸ h9))
      · exact .inr (List.mem_append_right _ h7)
    · rcases ends_in hm with hm | ⟨k, hk, hn⟩
      · exact h3 l m hm hr
      · subst hk
        rcases h6 k m hn hr with ⟨h7, h8⟩ | h7
        · rcases h2 h7 with ⟨h9, h10⟩ | h9
          · exact .inl ⟨h9, h8.trans h10⟩
          · exact .inr (List.mem_append_left _ (h8 ▸ h9))
        · exact .inr (List.mem_append_right _ h7)

theorem sndLPo : PO SndL where
  refl s := fun h => ⟨h, rfl, sndPo.refl s⟩
  trans := by
    intro a b c h1 h2 h
    have g1 := h1 h
    have g2 := h2 g1.1
    exact ⟨g2.1, g2.2.1.trans g1.2.1, sndPo.trans g1.2.2 g2.2.2⟩

theorem Unfed.snd {s s' : Srv} : Unfed s s' → Snd s s' := by
  rintro ⟨h1, h2, es, h3, h4⟩
  refine ⟨es, h3, fun h => .inl ⟨h1 ▸ h, h2⟩, fun l m hm hr => ?_⟩
  have := h4 _ (sent_mem hm)
  rw [feeds_send hr] at this
  cases this

theorem Unfed.sndL {s s' : Srv} (h : Unfed s s') : SndL s s' := fun hl => ⟨h.1.trans hl, h.2.1, h.snd⟩

theorem Unfed.calm {s s' : Srv} (h1 : s'.role = s.role) (h2 : s'.term = s.term) (h3 : s'.trace = s.trace) : Unfed s s' :=
  ⟨h1, h2, [], by rw [h3, List.append_nil], fun _ h => absurd h List.not_mem_nil⟩

/-- A step down, without requests. -/
theorem Snd.down {s s' : Srv} {es : List Eff} (h1 : s'.role ≠ .leader) (h2 : s'.trace = s.trace ++ es)
    (h3 : ∀ e ∈ es, e.feeds = false) : Snd s s' :=
  ⟨es, h2, fun h => absurd h h1, fun l m hm hr => by
    have := h3 _ (sent_mem hm)
    rw [feeds_send hr] at this
    cases this⟩

theorem Frame.sndL {s s' : Srv} (h : Frame isRepl s s') : SndL s s' := by
  intro hl
  refine ⟨h.role.trans hl, h.term, ?_⟩
  obtain ⟨ps, j, es, rfl, _, _, h4⟩ := h
  refine ⟨es, rfl, fun _ => .inl ⟨hl, rfl⟩, fun l m hm hr => ?_⟩
  rcases h4 _ (sent_mem hm) with h | ⟨r, h, h5, _⟩
  · cases h
  · cases h
    refine .inl ⟨hl, ?_⟩
    cases h5 <;> rfl

theorem stl_mod {f : Srv → Srv} (h : ∀ s, Unfed s (f s)) : Pres Unfed (modify f : R PUnit) := fun s => h s

theorem stl_emit {e : Eff} (h : e.feeds = false) : Pres Unfed (emit e) :=
  fun _ => ⟨rfl, rfl, [e], rfl, fun _ hx => (List.mem_singleton.1 hx) ▸ h⟩

theorem stl_modPeer (r : PeerRef) (f : Peer → Peer) : Pres Unfed (modPeer r f) := fun s => by
  cases r with
  | member id => exact Unfed.calm rfl rfl rfl
  | joining => exact Unfed.calm rfl rfl rfl

theorem stl_saveState : Pres Unfed saveState := fun _ => ⟨rfl, rfl, [_], rfl, fun _ hx => (List.mem_singleton.1 hx) ▸ rfl⟩

/-- The primitive updates. -/
macro "stl" : tactic => `(tactic| first | rfl | exact Unfed.calm rfl rfl rfl | (split <;> exact Unfed.calm rfl rfl rfl))

theorem stl_die {α : Type} (c : Int) : Pres Unfed (die c : R α) := by
  unfold die
  pres unfedPo using stl_emit
  all_goals stl
theorem stl_getPeer (r : PeerRef) : Pres Unfed (getPeer r) := by
  unfold getPeer
  pres unfedPo using stl_die
  all_goals stl
theorem stl_peerIds : Pres Unfed peerIds := fun s => unfedPo.refl s
theorem stl_termAt (i : Nat) : Pres Unfed (termAt i) := by
  unfold termAt
  pres unfedPo using stl_die
  all_goals stl
theorem stl_termForLog (i : Nat) : Pres Unfed (termForLog i) := by
  unfold termForLog
  pres unfedPo using stl_die, stl_termAt
  all_goals stl
theorem stl_chooseSnap (r : PeerRef) (i : Nat) : Pres Unfed (chooseSnap r i) := by
  unfold chooseSnap
  pres unfedPo using stl_die, stl_getPeer, stl_modPeer
theorem stl_createSyncReq (r : PeerRef) (i t c : Nat) : Pres Unfed (createSyncSnapshotReq r i t c) := by
  unfold createSyncSnapshotReq
  pres unfedPo using stl_die, stl_getPeer, stl_chooseSnap
theorem stl_entriesFrom (i : Nat) : Pres Unfed (entriesFrom i) := by
  unfold entriesFrom
  pres unfedPo using stl_die
theorem stl_appendReqFrom (r : PeerRef) (i : Nat) : Pres Unfed (appendReqFrom r i) := by
  unfold appendReqFrom
  pres unfedPo using stl_termForLog, stl_entriesFrom, stl_getPeer
theorem stl_createAppendReq (r : PeerRef) : Pres Unfed (createAppendReq r) := by
  unfold createAppendReq
  pres unfedPo using stl_die, stl_getPeer, stl_modPeer, stl_createSyncReq, stl_appendReqFrom
theorem stl_askVote {ty : MsgType} (h : isPoll ty) (id : Int) : Pres Unfed (askVote ty id) := by
  unfold askVote
  pres unfedPo using stl_termForLog, stl_emit
  rcases h with h | h <;> subst h <;> rfl
theorem stl_entryAt (i : Nat) : Pres Unfed (entryAt i) := by
  unfold entryAt
  pres unfedPo using stl_die
  all_goals stl
theorem stl_entryToApply (i : Nat) : Pres Unfed (entryToApply i) := by
  unfold entryToApply
  pres unfedPo using stl_die
  all_goals stl
theorem stl_restart : Pres Unfed restartElectionTimer := by
  unfold restartElectionTimer
  pres unfedPo using stl_mod
  all_goals stl
theorem stl_stop : Pres Unfed stopElectionTimer := by
  unfold stopElectionTimer
  pres unfedPo using stl_mod
  all_goals stl
theorem stl_enableHb (r : PeerRef) : Pres Unfed (enableHb r) := by
  unfold enableHb
  pres unfedPo using stl_modPeer
theorem stl_leaderPeer (id : Int) : Pres Unfed (leaderPeer id) := by
  unfold leaderPeer
  pres unfedPo using stl_modPeer, stl_enableHb
theorem stl_logAppend (e : Entry) : Pres Unfed (logAppend e) := by
  unfold logAppend
  pres unfedPo using stl_mod, stl_emit
  all_goals stl
theorem stl_logWriteAt (i : Nat) (e : Entry) : Pres Unfed (logWriteAt i e) := by
  unfold logWriteAt
  pres unfedPo using stl_mod, stl_emit
  all_goals stl
theorem stl_logApplyPack (i : Nat) (es : List Entry) : Pres Unfed (logApplyPack i es) := by
  unfold logApplyPack
  pres unfedPo using stl_mod, stl_emit
  all_goals stl
theorem stl_logCompact (i : Nat) : Pres Unfed (logCompact i) := by
  unfold logCompact
  pres unfedPo using stl_mod, stl_emit
  all_goals stl
theorem stl_initialConf : Pres Unfed initialConf := by
  unfold initialConf
  pres unfedPo using stl_mod, stl_logAppend
  all_goals stl
theorem stl_noJoin : Pres Unfed (modify fun s : Srv => { s with srvToJoin := none } : R PUnit) :=
  fun _ => Unfed.calm rfl rfl rfl
theorem stl_voteSelf : Pres Unfed voteSelf := by
  unfold voteSelf
  pres unfedPo using stl_mod, stl_saveState
  all_goals stl
theorem stl_rearm : Pres Unfed rearm := by
  unfold rearm
  pres unfedPo using stl_restart
  all_goals stl
theorem stl_leaveConfig : Pres Unfed leaveConfig := by
  unfold leaveConfig
  pres unfedPo using stl_mod, stl_emit
  all_goals stl
theorem stl_skipSame : ∀ (es : List Entry) (i : Nat), Pres Unfed (skipSame i es)
  | [], _ => pres_pure unfedPo _
  | e :: es, i => by
    have ih := stl_skipSame es
    unfold skipSame
    pres unfedPo using stl_termAt, ih
theorem stl_rollbackOld (i : Nat) : Pres Unfed (rollbackOld i) := by
  unfold rollbackOld
  pres unfedPo using stl_entryAt, stl_emit, stl_mod
  all_goals stl
theorem stl_noteNew (i : Nat) (e : Entry) : Pres Unfed (noteNew i e) := by
  unfold noteNew
  pres unfedPo using stl_emit, stl_mod
  all_goals stl
theorem stl_overwriteOld : ∀ (es : List Entry) (i : Nat), Pres Unfed (overwriteOld i es)
  | [], _ => pres_pure unfedPo _
  | e :: es, i => by
    have ih := stl_overwriteOld es
    unfold overwriteOld
    pres unfedPo using stl_rollbackOld, stl_logWriteAt, stl_noteNew, ih
theorem stl_appendNew : ∀ (es : List Entry), Pres Unfed (appendNew es)
  | [] => pres_pure unfedPo _
  | e :: es => by
    have ih := stl_appendNew es
    unfold appendNew
    pres unfedPo using stl_logAppend, stl_noteNew, ih
theorem stl_storeEntries (r : Req) : Pres Unfed (storeEntries r) := by
  unfold storeEntries
  pres unfedPo using stl_skipSame, stl_overwriteOld, stl_appendNew
  all_goals stl
theorem stl_logOkay (r : Req) : Pres Unfed (logOkay r) := by
  unfold logOkay
  pres unfedPo using stl_termForLog
  all_goals stl
theorem stl_handleVoteReq (r : Req) : Pres Unfed (handleVoteReq r) := by
  unfold handleVoteReq
  pres unfedPo using stl_mod, stl_saveState
  all_goals stl
theorem stl_handlePrevoteReq (r : Req) : Pres Unfed (handlePrevoteReq r) := by
  unfold handlePrevoteReq
  pres unfedPo using stl_mod
  all_goals stl
theorem stl_addPeer (c : SrvCfg) : Pres Unfed (addPeer c) := by
  unfold addPeer
  pres unfedPo using stl_noJoin, stl_mod, stl_enableHb, stl_modPeer
  all_goals stl
theorem stl_removePeer (c : Config) (i : Int) : Pres Unfed (removePeer c i) := by
  unfold removePeer
  pres unfedPo using stl_emit, stl_die, stl_mod
  all_goals stl
theorem stl_reconfigure (c : Config) : Pres Unfed (reconfigure c) := by
  unfold reconfigure
  pres unfedPo using stl_addPeer, stl_removePeer, stl_mod
  all_goals stl
theorem stl_installSnapshot (q : Snap) : Pres Unfed (installSnapshot q) := by
  unfold installSnapshot
  pres unfedPo using stl_die, stl_logCompact, stl_stop, stl_emit, stl_mod, stl_reconfigure, stl_saveState, stl_restart
  all_goals stl
theorem stl_handleSnapshotSync (q : SnpSync) : Pres Unfed (handleSnapshotSync q) := by
  unfold handleSnapshotSync
  pres unfedPo using stl_emit, stl_die, stl_installSnapshot
  all_goals stl
theorem stl_handleRmSrv (r : Req) : Pres Unfed (handleRmSrv r) := by
  unfold handleRmSrv
  pres unfedPo using stl_emit
  all_goals stl
theorem stl_inviteSrv : Pres Unfed inviteSrv := by
  unfold inviteSrv
  pres unfedPo using stl_getPeer, stl_emit
  all_goals stl
theorem stl_handleLeave (r : Req) : Pres Unfed (handleLeave r) := by
  unfold handleLeave
  pres unfedPo using stl_mod
  all_goals stl
theorem stl_refusedResp (r : Resp) : Pres Unfed (refusedResp r) := by
  unfold refusedResp
  pres unfedPo using stl_modPeer
  all_goals stl
theorem stl_acceptedSnpResp (r : Resp) : Pres Unfed (acceptedSnpResp r) := by
  unfold acceptedSnpResp
  pres unfedPo using stl_modPeer, stl_getPeer
  all_goals stl
theorem stl_rpcResult (p : PeerRef) (ty : MsgType) (ok : Bool) : Pres Unfed (rpcResult p ty ok) := by
  unfold rpcResult
  pres unfedPo using stl_modPeer
theorem stl_commitConf (c : Config) : Pres Unfed (commitConf c) := by
  unfold commitConf
  pres unfedPo using stl_emit, stl_mod, stl_reconfigure
  all_goals stl
theorem stl_findConf (i : Nat) : ∀ (n : Nat) (c : Config), Pres Unfed (findConf i n c)
  | 0, _ => pres_throw unfedPo _
  | n + 1, c => by
    have ih := stl_findConf i n
    unfold findConf
    pres unfedPo using stl_entryAt, ih
theorem stl_confForSnap (i : Nat) : Pres Unfed (confForSnap i) := by
  unfold confForSnap
  pres unfedPo using stl_findConf, stl_die
  all_goals stl
theorem stl_keepSnap (q : Snap) : Pres Unfed (keepSnap q) := by
  unfold keepSnap
  pres unfedPo using stl_mod, stl_emit
  all_goals stl
theorem stl_startSnapshot (i : Nat) : Pres Unfed (startSnapshot i) := by
  unfold startSnapshot
  pres unfedPo using stl_confForSnap, stl_termAt, stl_emit, stl_mod, stl_keepSnap
  all_goals stl
theorem stl_snapshotAndCompact (i : Nat) : Pres Unfed (snapshotAndCompact i) := by
  unfold snapshotAndCompact
  pres unfedPo using stl_mod, stl_startSnapshot
  all_goals stl
theorem stl_onSnapshotCompleted (q : Snap) (ok : Bool) : Pres Unfed (onSnapshotCompleted q ok) := by
  unfold onSnapshotCompleted
  pres unfedPo using stl_mod, stl_logCompact
  all_goals stl
theorem stl_applyEntry (i : Nat) (e : Entry) : Pres Unfed (applyEntry i e) := by
  unfold applyEntry
  pres unfedPo using stl_emit, stl_commitConf
  all_goals stl
theorem stl_applyOne : Pres Unfed applyOne := by
  unfold applyOne
  pres unfedPo using stl_mod, stl_entryToApply, stl_applyEntry, stl_snapshotAndCompact
  all_goals stl

/-! ## What a leader does -/

theorem sl_of {α : Type} {m : R α} (h : Pres Unfed m) : Pres SndL m := fun s => (h s).sndL
theorem sn_of {α : Type} {m : R α} (h : Pres Unfed m) : Pres Snd m := fun s => (h s).snd
theorem sl_snd {α : Type} {m : R α} (h : Pres SndL m) {s : Srv} (hl : s.role = .leader) : Snd s (m s).2 := (h s hl).2.2

theorem sl_mod {f : Srv → Srv} (h : ∀ s, Unfed s (f s)) : Pres SndL (modify f : R PUnit) := sl_of (stl_mod h)
theorem sl_modPeer (r : PeerRef) (f : Peer → Peer) : Pres SndL (modPeer r f) := sl_of (stl_modPeer r f)
theorem sl_emit {e : Eff} (h : e.feeds = false) : Pres SndL (emit e) := sl_of (stl_emit h)
theorem sl_peerIds : Pres SndL peerIds := sl_of stl_peerIds
theorem sl_getPeer (r : PeerRef) : Pres SndL (getPeer r) := sl_of (stl_getPeer r)
theorem sl_logAppend (e : Entry) : Pres SndL (logAppend e) := sl_of (stl_logAppend e)
theorem sl_die {α : Type} (c : Int) : Pres SndL (die c : R α) := sl_of (stl_die c)
theorem sl_requestAppend (r : PeerRef) : Pres SndL (requestAppend r) := fun s => (requestAppend_frame r s).sndL
theorem sl_commitNotify (id : Int) : Pres SndL (commitNotify id) := fun s => (commitNotify_frame id s).sndL
theorem sl_requestAppendTo (id : Int) : Pres SndL (requestAppendTo id) := fun s => (requestAppendTo_frame id s).sndL
theorem sl_commit (n : Nat) : Pres SndL (commit n) := by
  unfold commit
  pres sndLPo using sl_mod, sl_emit, sl_peerIds, sl_commitNotify
  all_goals stl
theorem sl_requestAppendAll : Pres SndL requestAppendAll := by
  unfold requestAppendAll
  pres sndLPo using sl_commit, sl_peerIds, sl_requestAppendTo
theorem sl_appendClient : ∀ (es : List Entry), Pres SndL (appendClient es)
  | [] => pres_pure sndLPo _
  | e :: es => by
    have ih := sl_appendClient es
    unfold appendClient
    pres sndLPo using sl_logAppend, sl_emit, ih
    all_goals stl
theorem sl_addToConfig : Pres SndL addToConfig := by
  unfold addToConfig
  pres sndLPo using sl_logAppend, sl_mod, sl_requestAppendAll
  all_goals stl
/-- A block of a snapshot for a server that joins carries the term it is made with. -/
theorem sl_createSync {i t c : Nat} {s : Srv} (ht : t = s.term) :
    SndL s ((createSyncSnapshotReq .joining i t c >>= fun q => emit (.send q)) s).2 := by
  intro hl
  have h := createSync_frame isRepl .joining i t c s
  rw [run_bind]
  rcases hm : createSyncSnapshotReq .joining i t c s with ⟨a | q, s1⟩
  · rw [hm] at h; exact h.1.sndL hl
  · rw [hm] at h
    have h1 := h.1.sndL hl
    refine ⟨h1.1, h1.2.1, sndPo.trans h1.2.2 ⟨[.send q], rfl, fun hx => .inl ⟨hx, rfl⟩, fun l m hm _ => ?_⟩⟩
    obtain ⟨dst, snp, y, hq⟩ := h.2 q rfl
    have hm := List.mem_singleton.1 (sent_mem hm)
    injection hm with hm
    subst hm
    refine .inl ⟨h1.1, ?_⟩
    rw [hq]
    exact ht.trans h1.2.1.symm
theorem sl_syncLogToNewSrv (i : Nat) : Pres SndL (syncLogToNewSrv i) := by
  unfold syncLogToNewSrv
  refine pres_getBind fun s => ?_
  show At SndL s _
  split
  · exact sl_addToConfig s
  · split
    · exact sl_createSync rfl
    · split
      · exact sndLPo.refl s
      · split
        · exact sndLPo.refl s
        · exact pres_bind sndLPo (sl_getPeer _) (fun _ => sl_emit rfl) s
theorem sl_rmSrvFromCluster (i : Int) : Pres SndL (rmSrvFromCluster i) := by
  unfold rmSrvFromCluster
  pres sndLPo using sl_logAppend, sl_mod, sl_requestAppendAll
  all_goals stl
theorem sl_handleExtSnpResp (r : Resp) : Pres SndL (handleExtSnpResp r) := by
  unfold handleExtSnpResp
  pres sndLPo using sl_die, sl_modPeer, sl_getPeer, sl_syncLogToNewSrv
  all_goals stl
theorem sl_handleExtResp (r : Resp) (h : r.type ≠ .prevoteResp) : Pres SndL (handleExtResp r) := by
  unfold handleExtResp
  refine pres_bind sndLPo (pres_get sndLPo) fun s => ?_
  split
  · pres sndLPo using sl_modPeer, sl_syncLogToNewSrv
  · pres sndLPo using sl_syncLogToNewSrv
  · pres sndLPo using sl_rmSrvFromCluster
  · exact sl_handleExtSnpResp r
  · exact absurd ‹_› h
  · exact sl_die _
theorem sl_forceRemove (i : Int) : Pres SndL (forceRemove i) := by
  unfold forceRemove
  exact pres_bind sndLPo (sl_mod fun _ => Unfed.calm rfl rfl rfl) fun _ => sl_rmSrvFromCluster i
theorem sl_handleExtErr (r : Req) : Pres SndL (handleExtErr r) := by
  unfold handleExtErr
  pres sndLPo using sl_forceRemove, sl_modPeer, sl_mod
  all_goals stl
theorem sl_rpcResult (p : PeerRef) (ty : MsgType) (ok : Bool) : Pres SndL (rpcResult p ty ok) := sl_of (stl_rpcResult p ty ok)

/-! ## What any server does -/

theorem sn_mod {f : Srv → Srv} (h : ∀ s, Unfed s (f s)) : Pres Snd (modify f : R PUnit) := sn_of (stl_mod h)
theorem sn_commit (n : Nat) : Pres Snd (commit n) := by
  intro s
  by_cases hl : s.role = .leader
  · exact sl_snd (sl_commit n) hl
  · unfold commit
    rw [bind_get]
    simp only [if_neg hl]
    have h : Pres Unfed (if s.quickCommit < n then do
        modify fun s => { s with quickCommit := n }
        emit (.advance n)
        pure ()
      else pure () : R Unit) := by
      pres unfedPo using stl_mod, stl_emit
      all_goals stl
    exact (h s).snd
theorem sn_becomeLeader : Pres Snd becomeLeader := by
  intro s
  show Snd s (becomeLeader s).2
  unfold becomeLeader
  have h0 : stopElectionTimer s = (.ok ⟨⟩, { s with armed := false }) := rfl
  rw [run_bind_ok h0, bind_get, bind_modify, bind_emit]
  refine sndPo.trans (b := { s with armed := false, role := .leader, trace := s.trace ++ [.lead s.term] })
    ⟨[.lead s.term], rfl, fun _ => .inr (List.mem_singleton.2 rfl), fun l m hm => absurd (List.mem_singleton.1 (sent_mem hm)) (fun h => by cases h)⟩ ?_
  have h1 : Pres SndL (do
      modify fun s : Srv => { s with leader := s.id }
      modify fun s : Srv => { s with srvToJoin := none }
      let ids ← peerIds
      forEach leaderPeer ids
      initialConf
      emit (.event .becomeLeader)
      requestAppendAll : R Unit) := by
    pres sndLPo using sl_mod, sl_emit, sl_peerIds, sl_of (stl_leaderPeer _), sl_of stl_initialConf, sl_requestAppendAll
    all_goals stl
  exact sl_snd h1 rfl
theorem sn_updateTerm (t : Nat) : Pres Snd (updateTerm t) := by
  intro s
  show Snd s (updateTerm t s).2
  by_cases h : s.term < t
  · rw [run_updateTerm_gt h]
    refine Snd.down (es := [.saveState t (-1), .event .becomeFollower]) (by show Role.follower ≠ _; decide) (List.append_assoc ..) fun e he => ?_
    rcases List.mem_cons.1 he with he | he
    · subst he; rfl
    · rw [List.mem_singleton.1 he]; rfl
  · rw [run_updateTerm_le (Nat.le_of_not_lt h)]; exact sndPo.refl s
theorem sn_stepDown {s : Srv} : Snd s s.stepDown :=
  Snd.down (es := [.event .becomeFollower]) (by show Role.follower ≠ _; decide) rfl fun e he => by rw [List.mem_singleton.1 he]; rfl
theorem sn_askVote (id : Int) : Pres Snd (askVote .voteReq id) := sn_of (stl_askVote (.inl rfl) id)
theorem sn_askPrevote (id : Int) : Pres Snd (askVote .prevoteReq id) := sn_of (stl_askVote (.inr rfl) id)
theorem sn_askForVotes : Pres Snd askForVotes := by
  unfold askForVotes
  pres sndPo using sn_mod, sn_becomeLeader, sn_of stl_peerIds, sn_askVote
  all_goals stl
theorem sn_startTerm : Pres Snd startTerm := by
  intro s
  show Snd s (startTerm s).2
  unfold startTerm
  rw [bind_modify, bind_modify, bind_modify, bind_modify]
  exact Snd.down (es := [_]) (by show Role.candidate ≠ _; decide) rfl fun e he => by rw [List.mem_singleton.1 he]; rfl
theorem sn_becomeCandidate : Pres Snd becomeCandidate := by
  unfold becomeCandidate requestVote
  pres sndPo using sn_startTerm, sn_of stl_voteSelf, sn_askForVotes, sn_of stl_rearm
theorem sn_requestPrevote : Pres Snd requestPrevote := by
  unfold requestPrevote
  pres sndPo using sn_becomeCandidate, sn_mod, sn_of stl_peerIds, sn_askPrevote
  all_goals stl
theorem sn_handleElectionTimeout : Pres Snd handleElectionTimeout := by
  unfold handleElectionTimeout
  pres sndPo using sn_mod, sn_of stl_leaveConfig, sn_of (stl_die _), sn_of stl_restart, sn_requestPrevote, sn_becomeCandidate
  all_goals stl
/-- What follows a look at the role is done by a leader. -/
theorem sn_ifLeader {P : Prop} [Decidable P] {m k : R Unit} (h1 : Pres SndL m) (h2 : Pres Snd k) :
    Pres Snd (do let s ← get; if s.role = .leader ∧ P then m else k) := by
  refine pres_getBind fun s => ?_
  by_cases h : s.role = .leader ∧ P
  · rw [if_pos h]; exact sl_snd h1 h.1
  · rw [if_neg h]; exact h2 s
theorem sn_handleHbTimeout (r : PeerRef) : Pres Snd (handleHbTimeout r) := by
  unfold handleHbTimeout
  refine pres_bind sndPo (sn_of (stl_modPeer _ _)) fun _ => pres_getBind fun s => ?_
  by_cases h : s.role = .leader
  · rw [if_pos h]
    have h1 : Pres SndL (do
        let _ ← requestAppend r
        modPeer r fun p => if p.hbEnabled then { p with hbArmed := true } else p : R Unit) := by
      pres sndLPo using sl_requestAppend, sl_modPeer
    exact sl_snd h1 h
  · rw [if_neg h]; exact sndPo.refl s
theorem sn_hearLeader (r : Req) : Pres Snd (hearLeader r) := by
  unfold hearLeader
  refine pres_getBind fun s => ?_
  show At Snd s _
  split
  · split
    · show Snd s (becomeFollower s).2
      rw [run_becomeFollower]
      exact sn_stepDown
    · exact sn_of (stl_die _) s
    · exact sn_of stl_restart s
  · exact sndPo.refl s
theorem sn_handleAppendEntries (r : Req) : Pres Snd (handleAppendEntries r) := by
  unfold handleAppendEntries
  pres sndPo using sn_hearLeader, sn_of (stl_logOkay _), sn_of (stl_storeEntries _), sn_mod, sn_commit
  all_goals stl
theorem stl_isLeader : Pres Unfed isLeader := by
  unfold isLeader
  refine pres_getBind fun s => ?_
  by_cases h : s.role = .leader ∧ 0 < s.peers.length ∧ s.params.electionUpper * 2 < s.elapsed
  · simp only [if_pos h]
    have h1 : Unfed s { s with elapsed := toI32 ((s.now : Int) - quorumResp s) } := Unfed.calm rfl rfl rfl
    rw [bind_modify]
    generalize { s with elapsed := toI32 ((s.now : Int) - quorumResp s) } = s1 at h1 ⊢
    have h2 : Pres Unfed (do
        let s ← get
        if s.params.electionUpper * 2 < s.elapsed then pure false
        else pure (decide (s.role = .leader)) : R Bool) := by
      pres unfedPo using stl_mod
    exact unfedPo.trans h1 (h2 s1)
  · simp only [if_neg h]
    exact unfedPo.refl s
/-- What follows `is_leader()` if it says yes is done by a leader. -/
theorem sn_asLeader {β : Type} {k : Bool → R β} (h1 : Pres Snd (k false)) (h2 : Pres SndL (k true)) :
    Pres Snd (isLeader >>= k) := by
  intro s
  have e1 := stl_isLeader s
  rw [run_bind]
  rcases hm : isLeader s with ⟨a | a, s'⟩
  · rw [hm] at e1; exact e1.snd
  · rw [hm] at e1
    cases a with
    | false => exact sndPo.trans e1.snd (h1 s')
    | true => exact sndPo.trans e1.snd (sl_snd h2 (e1.1.trans (isLeader_true hm)))
theorem sn_handleCliReq (r : Req) : Pres Snd (handleCliReq r) := by
  unfold handleCliReq
  refine sn_asLeader ?_ ?_
  · refine pres_bind sndPo (pres_get sndPo) fun s => ?_
    rw [if_pos (rfl : (false : Bool) = false)]
    exact pres_ite (pres_pure sndPo _) (pres_pure sndPo _)
  · refine pres_bind sndLPo (pres_get sndLPo) fun s => ?_
    pres sndLPo using sl_appendClient, sl_requestAppendAll
theorem sn_replicateLog (d : Nat) : Pres Snd (replicateLog d) := by
  unfold replicateLog
  refine sn_asLeader (pres_pure sndPo _) ?_
  pres sndLPo using sl_logAppend, sl_requestAppendAll
theorem sn_hearSnapshotLeader (r : Req) : Pres Snd (hearSnapshotLeader r) := by
  unfold hearSnapshotLeader
  refine pres_getBind fun s => ?_
  show At Snd s _
  split
  · split
    · show Snd s (becomeFollower s).2
      rw [run_becomeFollower]
      exact sn_stepDown
    · exact sn_of (stl_die _) s
    · exact sn_of stl_restart s
  · exact sndPo.refl s
theorem sn_handleInstallSnapshot (r : Req) : Pres Snd (handleInstallSnapshot r) := by
  unfold handleInstallSnapshot
  pres sndPo using sn_hearSnapshotLeader, sn_of (stl_handleSnapshotSync _)
theorem sn_handleAddSrv (r : Req) : Pres Snd (handleAddSrv r) := by
  unfold handleAddSrv
  pres sndPo using sn_mod, sn_of stl_inviteSrv
  all_goals stl
theorem sn_handleLogSync (r : Req) : Pres Snd (handleLogSync r) := by
  unfold handleLogSync
  pres sndPo using sn_of (stl_logApplyPack _ _), sn_commit
theorem sn_handleJoin (r : Req) : Pres Snd (handleJoin r) := by
  unfold handleJoin
  refine pres_getBind fun s => ?_
  show At Snd s _
  split
  · unfold At
    split
    · exact sndPo.refl s
    · rw [bind_modify, bind_modify, bind_modify]
      have h1 : ∀ c : Config, Pres Snd (do
          saveState
          reconfigure c
          let s' ← get
          pure { type := .joinResp, term := s.term, src := s.id, dst := r.src, nextIdx := s'.log.next, accepted := true } : R Resp) := by
        intro c
        pres sndPo using sn_of stl_saveState, sn_of (stl_reconfigure _)
      exact sndPo.trans (b := { s with catchingUp := true, role := .follower, leader := r.src, smCommit := 0, quickCommit := 0, vote := -1, term := r.term })
        (Snd.down (es := []) (by show Role.follower ≠ _; decide) (List.append_nil _).symm fun _ h => absurd h List.not_mem_nil) (h1 _ _)
  · exact sndPo.refl s
theorem sn_hearTerm (r : Req) : Pres Snd (hearTerm r) := by
  unfold hearTerm
  pres sndPo using sn_updateTerm, sn_mod
  all_goals stl
theorem sn_acceptedResp (r : Resp) : Pres Snd (acceptedResp r) := by
  unfold acceptedResp
  pres sndPo using sn_of (stl_modPeer _ _), sn_commit, sn_of (stl_getPeer _)
theorem sn_answerPeer (b : Bool) (i : Int) :
    Pres Snd (do let s ← get; if s.role = .leader ∧ b = true then requestAppendTo i else pure () : R Unit) :=
  sn_ifLeader (sl_requestAppendTo i) (pres_pure sndPo _)
theorem sn_handleAppendResp (r : Resp) : Pres Snd (handleAppendResp r) := by
  unfold handleAppendResp
  pres sndPo using sn_answerPeer, sn_acceptedResp, sn_of (stl_refusedResp _)
theorem sn_handleSnpResp (r : Resp) : Pres Snd (handleSnpResp r) := by
  unfold handleSnpResp
  pres sndPo using sn_answerPeer, sn_of (stl_acceptedSnpResp _)
theorem sn_handleVotingResp (r : Resp) : Pres Snd (handleVotingResp r) := by
  unfold handleVotingResp
  pres sndPo using sn_mod, sn_becomeLeader
  all_goals stl
theorem sn_dispatchResp (r : Resp) : Pres Snd (dispatchResp r) := by
  unfold dispatchResp
  split
  · exact sn_handleVotingResp r
  all_goals pres sndPo using sn_handleAppendResp, sn_handleSnpResp, sn_of (stl_die _)
theorem sn_handlePeerResp (r : Resp) : Pres Snd (handlePeerResp r) := by
  unfold handlePeerResp
  pres sndPo using sn_of (stl_modPeer _ _), sn_updateTerm, sn_dispatchResp
theorem sn_handlePrevoteResp (r : Resp) : Pres Snd (handlePrevoteResp r) := by
  unfold handlePrevoteResp
  pres sndPo using sn_mod, sn_becomeCandidate, sn_of stl_restart
  all_goals stl
theorem stl_retryReq (r : Req) : Pres Unfed (retryReq r) := by
  unfold retryReq
  split
  · next h => 
    refine stl_emit ?_
    show (r.type == .appendReq || r.type == .snpReq) = false
    rcases h with h | h | h <;> rw [h] <;> rfl
  · exact pres_pure unfedPo _
theorem sn_dispatch (r : Req) : Pres Snd (dispatch r) := by
  have h1 : Pres Snd (handleExtended r) := by
    unfold handleExtended
    split
    · exact sn_handleAddSrv r
    · exact sn_of (stl_handleRmSrv r)
    · exact sn_handleLogSync r
    · exact sn_handleJoin r
    · exact sn_of (stl_handleLeave r)
    · exact sn_handleInstallSnapshot r
    · exact sn_of (stl_handlePrevoteReq r)
    · exact sn_of (stl_die _)
  unfold dispatch
  pres sndPo using sn_handleAppendEntries, sn_of (stl_handleVoteReq _), sn_handleCliReq, h1

/-- The answer to a request of a membership change, or the failure of the request to leave. -/
def Input.ofChange : Input → Bool
  | .extResp _ _ r => r.type != .prevoteResp
  | .extErr _ q => q.type == .leaveReq
  | _ => false

theorem stl_handleExtErr {r : Req} (h : r.type ≠ .leaveReq) : Pres Unfed (handleExtErr r) := by
  unfold handleExtErr
  refine pres_bind unfedPo (pres_get unfedPo) fun s => ?_
  split
  · exact absurd ‹_› h
  all_goals pres unfedPo using stl_modPeer, stl_mod
  all_goals stl

/-- Every input but late answers to the requests of a membership change. -/
theorem snd_run (s : Srv) (x : Input) (hx : x.ofChange = true → s.role = .leader) : Snd s (x.run s).2 := by
  cases x with
  | req r =>
    exact pres_bind sndPo (pres_bind sndPo (sn_hearTerm r) fun _ => sn_dispatch r) (fun q => sn_of (stl_emit rfl)) s
  | peerResp ty r => exact pres_bind sndPo (sn_of (stl_rpcResult _ _ _)) (fun _ => sn_handlePeerResp r) s
  | extResp p ty r =>
    by_cases hr : r.type = .prevoteResp
    · refine pres_bind sndPo (sn_of (stl_rpcResult _ _ _)) (fun _ => ?_) s
      unfold handleExtResp
      refine pres_bind sndPo (pres_get sndPo) fun s => ?_
      rw [hr]
      exact sn_handlePrevoteResp r
    · exact sl_snd (pres_bind sndLPo (sl_rpcResult _ _ _) fun _ => sl_handleExtResp r hr) (hx (bne_iff_ne.2 hr))
  | peerErr r => exact sn_of (stl_rpcResult _ _ _) s
  | extErr p r =>
    by_cases hr : r.type = .leaveReq
    · exact sl_snd (pres_bind sndLPo (sl_rpcResult _ _ _) fun _ => sl_handleExtErr r) (hx (by rw [Input.ofChange, hr]; rfl))
    · exact sn_of (pres_bind unfedPo (stl_rpcResult _ _ _) fun _ => stl_handleExtErr hr) s
  | retry r => exact sn_of (stl_retryReq r) s
  | electionTimeout => exact sn_handleElectionTimeout s
  | hbTimeout id => exact sn_handleHbTimeout _ s
  | apply => exact sn_of stl_applyOne s
  | snapDone q ok =>
    cases ok with
    | true => exact sn_of (pres_bind unfedPo (stl_keepSnap q) fun _ => stl_onSnapshotCompleted q true) s
    | false => exact sn_of (stl_onSnapshotCompleted q false) s
  | replicate d => exact pres_bind sndPo (sn_replicateLog d) (fun _ => pres_pure sndPo _) s
  | tick n => exact sn_mod (fun s => Unfed.calm rfl rfl rfl) s

end Cs.Raft
