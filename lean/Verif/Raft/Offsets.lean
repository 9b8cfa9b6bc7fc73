import Verif.Raft.Steps
import Verif.Raft.Pres
import Verif.Raft.Frame
import Verif.Raft.Spec

/-!
# Where the offsets of snapshot requests come from

`Offs A`: if all transfers of a server are at offset 0 or at an offset for which `A` holds (for the server and the snapshot), then this
remains so, and every block that is sent has such an offset.
-/

set_option linter.unusedSectionVars false

namespace Cs.Raft
open Cs

variable (A : Int → Snap → Nat → Prop)

/-- The transfer to a peer, if there is one, is at an offset for which `A` holds. -/
def Peer.At (p : Peer) : Prop := ∀ snp off, p.snpCtx = some (snp, off) → off = 0 ∨ A p.id snp off

/-- All transfers are. -/
structure Srv.At (s : Srv) : Prop where
  peers : ∀ p ∈ s.peers, p.At A
  joinee : ∀ p, s.srvToJoin = some p → p.At A

/-- The block of a request, if it has one, has such an offset. -/
def Req.At (r : Req) : Prop := ∀ q, r.sync = some q → q.offset = 0 ∨ A r.dst q.snap q.offset

/-- See above. -/
def Offs (s s' : Srv) : Prop :=
  ∃ es, s'.trace = s.trace ++ es ∧ (s.At A → s'.At A ∧ ∀ r, .send r ∈ es → r.At A)

theorem offsPo : PO (Offs A) := by
  refine ⟨fun s => ⟨[], by simp, fun h => ⟨h, by simp⟩⟩, ?_⟩
  rintro a b c ⟨e1, t1, h1⟩ ⟨e2, t2, h2⟩
  refine ⟨e1 ++ e2, by rw [t2, t1, List.append_assoc], fun h => ?_⟩
  obtain ⟨g1, g2⟩ := h1 h
  obtain ⟨g3, g4⟩ := h2 g1
  exact ⟨g3, fun r hr => (List.mem_append.1 hr).elim (g2 r) (g4 r)⟩

/-- Effects that are not requests, or requests without block. -/
def Eff.noBlock : Eff → Bool
  | .send r => r.sync.isNone
  | _ => true

variable {A}

theorem at_none {r : Req} (h : r.sync = none) : r.At A := fun q hq => by rw [h] at hq; cases hq

theorem oa_of {s s' : Srv} (h : s'.trace = s.trace) (h2 : s.At A → s'.At A) : Offs A s s' :=
  ⟨[], by rw [h, List.append_nil], fun g => ⟨h2 g, by simp⟩⟩
theorem oa_same {s s' : Srv} (h : s'.trace = s.trace) (h2 : s'.peers = s.peers) (h3 : s'.srvToJoin = s.srvToJoin ∨ s'.srvToJoin = none) :
    Offs A s s' := oa_of h fun g => ⟨by rw [h2]; exact g.peers, fun p hp => by
      rcases h3 with h3 | h3
      · exact g.joinee p (by rw [← h3]; exact hp)
      · rw [h3] at hp; cases hp⟩
theorem oa_filter {s : Srv} (f : Peer → Bool) : Offs A s { s with peers := s.peers.filter f } :=
  oa_of rfl fun g => ⟨fun p hp => g.peers p (List.mem_filter.1 hp).1, g.joinee⟩
theorem oa_add {s : Srv} (p : Peer) (h : p.snpCtx = none) : Offs A s { s with peers := s.peers ++ [p] } :=
  oa_of rfl fun g => ⟨fun q hq => (List.mem_append.1 hq).elim (g.peers q) fun hq => by
    rw [List.mem_singleton.1 hq]
    exact fun a b hc => (by rw [h] at hc; cases hc), g.joinee⟩
theorem oa_invite {s : Srv} (p : Peer) (h : p.snpCtx = none) : Offs A s { s with srvToJoin := some p } :=
  oa_of rfl fun g => ⟨g.peers, fun q hq => by
    cases hq
    exact fun a b hc => (by rw [h] at hc; cases hc)⟩
theorem oa_mod {f : Srv → Srv} (h : ∀ s, Offs A s (f s)) : Pres (Offs A) (modify f : R PUnit) := fun s => h s
theorem oa_send {s : Srv} {r : Req} (h : s.At A → r.At A) : Offs A s (emit (.send r) s).2 := ⟨[.send r], rfl, fun g => ⟨⟨g.peers, g.joinee⟩, fun q hq => by
  cases List.mem_singleton.1 hq; exact h g⟩⟩
theorem oa_emit (e : Eff) (h : e.noBlock = true) : Pres (Offs A) (emit e) := fun s => ⟨[e], rfl, fun g => ⟨⟨g.peers, g.joinee⟩, fun r hr => by
  rw [← List.mem_singleton.1 hr] at h
  exact at_none (Option.isNone_iff_eq_none.1 h)⟩⟩

theorem setPeer_at {s : Srv} (r : PeerRef) {f : Peer → Peer} (hf : ∀ p, s.peer r = some p ∨ (∃ i, r = .member i ∧ p ∈ s.peers ∧ p.id = i) → p.At A → (f p).At A)
    (g : s.At A) : (s.setPeer r f).At A := by
  cases r with
  | member id =>
    refine ⟨fun p hp => ?_, g.joinee⟩
    obtain ⟨p0, h0, rfl⟩ := List.mem_map.1 hp
    by_cases c : (p0.id == id) = true
    · rw [if_pos c]; exact hf p0 (.inr ⟨id, rfl, h0, by simpa using c⟩) (g.peers p0 h0)
    · rw [if_neg c]; exact g.peers p0 h0
  | joining =>
    refine ⟨g.peers, fun p hp => ?_⟩
    obtain ⟨p0, h0, rfl⟩ := Option.map_eq_some_iff.1 hp
    exact hf p0 (.inl h0) (g.joinee p0 h0)

/-- Changes of peers that keep the transfer, or end it, or start it. -/
def CtxTame (f : Peer → Peer) : Prop := ∀ p, (f p).cfg = p.cfg ∧ ((f p).snpCtx = p.snpCtx ∨ (f p).snpCtx = none ∨ ∃ snp, (f p).snpCtx = some (snp, 0))

theorem CtxTame.at {f : Peer → Peer} (h : CtxTame f) {p : Peer} (g : p.At A) : (f p).At A := by
  intro snp off hc
  obtain ⟨h1, h2⟩ := h p
  rcases h2 with h2 | h2 | ⟨q, h2⟩
  · rw [h2] at hc
    show off = 0 ∨ A (f p).cfg.id snp off
    rw [h1]; exact g snp off hc
  · rw [h2] at hc; cases hc
  · rw [h2] at hc; cases hc; exact .inl rfl

theorem oa_peers {s : Srv} {f : Peer → Peer} (hf : CtxTame f) : Offs A s { s with peers := s.peers.map f } :=
  oa_of rfl fun g => ⟨fun p hp => by
    obtain ⟨p0, h0, rfl⟩ := List.mem_map.1 hp
    exact hf.at (g.peers p0 h0), g.joinee⟩

theorem oa_modPeer (r : PeerRef) (f : Peer → Peer) (hf : CtxTame f) : Pres (Offs A) (modPeer r f) := fun s =>
  oa_of (by cases r <;> rfl) (setPeer_at r fun _ _ => hf.at)

/-- `A` holds for the offset `o` of the transfer to the peer `r`, if there is one. -/
def Srv.Fits (A : Int → Snap → Nat → Prop) (s : Srv) (r : PeerRef) (o : Nat) : Prop :=
  ∀ p snp off, s.peer r = some p → p.snpCtx = some (snp, off) → A p.id snp o

theorem peer_setPeer {s : Srv} {r r' : PeerRef} {f : Peer → Peer} (hf : ∀ p, (f p).cfg = p.cfg ∧ (f p).snpCtx = p.snpCtx) {p' : Peer}
    (h : (s.setPeer r f).peer r' = some p') : ∃ p, s.peer r' = some p ∧ p'.id = p.id ∧ p'.snpCtx = p.snpCtx := by
  cases r with
  | member i =>
    cases r' with
    | member j =>
      have h : (s.peers.map fun p => if p.id == i then f p else p).find? (·.id == j) = some p' := h
      rw [List.find?_map] at h
      obtain ⟨p, h1, h2⟩ := Option.map_eq_some_iff.1 h
      have hid : ∀ p : Peer, (if p.id == i then f p else p).id = p.id := fun p => by
        split
        · exact congrArg SrvCfg.id (hf p).1
        · rfl
      refine ⟨p, ?_, ?_, ?_⟩
      · rw [← h1]
        show s.peers.find? (·.id == j) = _
        congr 1
        funext q
        show (q.id == j) = ((if q.id == i then f q else q).id == j)
        rw [hid]
      · rw [← h2, hid]
      · rw [← h2]
        show (if (p.id == i) = true then f p else p).snpCtx = _
        split
        · exact (hf p).2
        · rfl
    | joining => exact ⟨p', h, rfl, rfl⟩
  | joining =>
    cases r' with
    | member j => exact ⟨p', h, rfl, rfl⟩
    | joining =>
      obtain ⟨p, h1, h2⟩ := Option.map_eq_some_iff.1 (show s.srvToJoin.map f = some p' from h)
      exact ⟨p, h1, by rw [← h2]; exact congrArg SrvCfg.id (hf p).1, by rw [← h2]; exact (hf p).2⟩

theorem fits_setPeer {s : Srv} {r r' : PeerRef} {f : Peer → Peer} (hf : ∀ p, (f p).cfg = p.cfg ∧ (f p).snpCtx = p.snpCtx) {o : Nat}
    (h : s.Fits A r' o) : (s.setPeer r f).Fits A r' o := by
  intro p' snp off hp hc
  obtain ⟨p, h1, h2, h3⟩ := peer_setPeer hf hp
  rw [h2]
  exact h p snp off h1 (h3 ▸ hc)

/-- The offset of a transfer is moved. -/
theorem oa_move {s : Srv} {r : PeerRef} {p : Peer} {snp : Snap} {off o : Nat} (hp : s.peer r = some p) (hc : p.snpCtx = some (snp, off))
    (h : s.Fits A r o) : Offs A s (s.setPeer r fun p => { p with snpCtx := some (snp, o) }) := by
  refine oa_of (by cases r <;> rfl) (setPeer_at r fun p' hp' _ => ?_)
  rintro _ _ ⟨⟩
  have hi : p'.id = p.id := by
    rcases hp' with hp' | ⟨k, h1, _, h2⟩
    · rw [hp] at hp'; cases hp'; rfl
    · subst h1
      rw [h2]
      have : p.id = k := by simpa using List.find?_some hp
      exact this.symm
  exact .inr (show A p'.id snp o from hi ▸ h p snp off hp hc)

/-- A request is made and sent. -/
theorem oa_sendOf {β : Type} {m : R Req} (h : Pres (Offs A) m) (hv : ∀ s : Srv, s.At A → Gives (fun r => r.At A) (m s).1) {k : R β} (hk : Pres (Offs A) k) :
    Pres (Offs A) (m >>= fun r => emit (.send r) >>= fun _ => k) := by
  intro s
  have h1 := h s
  have h2 := hv s
  rcases hc : m s with ⟨e | r, s'⟩
  · rw [run_bind_err hc]; rw [hc] at h1; exact h1
  · rw [run_bind_ok hc]
    rw [hc] at h1 h2
    obtain ⟨e1, t1, g1⟩ := h1
    obtain ⟨e2, t2, g2⟩ := hk (emit (.send r) s').2
    refine ⟨e1 ++ [.send r] ++ e2, ?_, fun g => ?_⟩
    · show ((k (emit (.send r) s').2).2).trace = _
      rw [t2]; show s'.trace ++ [.send r] ++ e2 = _
      rw [t1]; simp
    · obtain ⟨a1, a2⟩ := g1 g
      obtain ⟨a3, a4⟩ := g2 ⟨a1.peers, a1.joinee⟩
      refine ⟨a3, fun q hq => ?_⟩
      rcases List.mem_append.1 hq with hq | hq
      · rcases List.mem_append.1 hq with hq | hq
        · exact a2 q hq
        · cases List.mem_singleton.1 hq; exact h2 g r rfl
      · exact a4 q hq

/-- The primitive updates. -/
macro "oa" : tactic => `(tactic| first
  | rfl
  | (exact oa_same rfl rfl (.inl rfl))
  | (exact oa_same rfl rfl (.inr rfl))
  | (exact oa_filter _)
  | (exact oa_peers fun _ => ⟨rfl, .inl rfl⟩)
  | (exact oa_add _ rfl)
  | (exact oa_invite _ rfl)
  | (exact fun _ => oa_same rfl rfl (.inl rfl))
  | (exact fun _ => ⟨rfl, .inl rfl⟩)
  | (exact fun _ => ⟨rfl, .inr (.inl rfl)⟩)
  | (exact fun _ => ⟨rfl, .inr (.inr ⟨_, rfl⟩)⟩)
  | (unfold CtxTame; intro _; dsimp only; split <;> exact ⟨rfl, .inl rfl⟩)
  | (unfold CtxTame; intro _; dsimp only; split <;> first | exact ⟨rfl, .inl rfl⟩ | (split <;> exact ⟨rfl, .inl rfl⟩))
  | (split <;> exact oa_same rfl rfl (.inl rfl))
  | (split <;> first | exact oa_filter _ | exact oa_same rfl rfl (.inl rfl))
  | skip)

theorem oa_die {α : Type} (c : Int) : Pres (Offs A) (die c : R α) := by
  unfold die
  pres (offsPo A) using oa_mod, oa_emit
  all_goals oa
theorem oa_saveState  : Pres (Offs A) (saveState) := by
  unfold saveState
  pres (offsPo A) using oa_mod, oa_emit
  all_goals oa
theorem oa_getPeer (r : PeerRef) : Pres (Offs A) (getPeer r) := by
  unfold getPeer
  pres (offsPo A) using oa_mod, oa_emit
  all_goals oa
theorem oa_peerIds  : Pres (Offs A) (peerIds) := by
  unfold peerIds
  pres (offsPo A) using oa_mod, oa_emit
  all_goals oa
theorem oa_logAppend (e : Entry) : Pres (Offs A) (logAppend e) := by
  unfold logAppend
  pres (offsPo A) using oa_mod, oa_emit
  all_goals oa
theorem oa_logWriteAt (i : Nat) (e : Entry) : Pres (Offs A) (logWriteAt i e) := by
  unfold logWriteAt
  pres (offsPo A) using oa_mod, oa_emit
  all_goals oa
theorem oa_termAt (i : Nat) : Pres (Offs A) (termAt i) := by
  unfold termAt
  pres (offsPo A) using oa_mod, oa_emit
  all_goals oa
theorem oa_entryAt (i : Nat) : Pres (Offs A) (entryAt i) := by
  unfold entryAt
  pres (offsPo A) using oa_mod, oa_emit
  all_goals oa
theorem oa_entryToApply (i : Nat) : Pres (Offs A) (entryToApply i) := by
  unfold entryToApply
  pres (offsPo A) using oa_mod, oa_die
  all_goals oa
theorem oa_logApplyPack (i : Nat) (es : List Entry) : Pres (Offs A) (logApplyPack i es) := by
  unfold logApplyPack
  pres (offsPo A) using oa_mod, oa_emit
  all_goals oa
theorem oa_logCompact (i : Nat) : Pres (Offs A) (logCompact i) := by
  unfold logCompact
  pres (offsPo A) using oa_mod, oa_emit
  all_goals oa
theorem oa_termForLog (i : Nat) : Pres (Offs A) (termForLog i) := by
  unfold termForLog
  pres (offsPo A) using oa_mod, oa_die, oa_termAt
  all_goals oa
theorem oa_restartElectionTimer  : Pres (Offs A) (restartElectionTimer) := by
  unfold restartElectionTimer
  pres (offsPo A) using oa_mod, oa_emit
  all_goals oa
theorem oa_stopElectionTimer  : Pres (Offs A) (stopElectionTimer) := by
  unfold stopElectionTimer
  pres (offsPo A) using oa_mod, oa_emit
  all_goals oa
theorem oa_enableHb (r : PeerRef) : Pres (Offs A) (enableHb r) := by
  unfold enableHb
  pres (offsPo A) using oa_mod, oa_modPeer
  all_goals oa
theorem oa_becomeFollower  : Pres (Offs A) (becomeFollower) := by
  unfold becomeFollower
  pres (offsPo A) using oa_mod, oa_emit, oa_restartElectionTimer
  all_goals oa
theorem oa_updateTerm (term : Nat) : Pres (Offs A) (updateTerm term) := by
  unfold updateTerm
  pres (offsPo A) using oa_mod, oa_saveState, oa_becomeFollower
  all_goals oa
theorem oa_chooseSnap (r : PeerRef) (lastIdx : Nat) : Pres (Offs A) (chooseSnap r lastIdx) := by
  unfold chooseSnap
  pres (offsPo A) using oa_mod, oa_die, oa_modPeer, oa_getPeer
  all_goals oa
theorem oa_createSyncSnapshotReq (r : PeerRef) (lastIdx term commitIdx : Nat) : Pres (Offs A) (createSyncSnapshotReq r lastIdx term commitIdx) := by
  unfold createSyncSnapshotReq
  pres (offsPo A) using oa_mod, oa_die, oa_getPeer, oa_chooseSnap
  all_goals oa
theorem oa_entriesFrom (last : Nat) : Pres (Offs A) (entriesFrom last) := by
  unfold entriesFrom
  pres (offsPo A) using oa_mod, oa_emit
  all_goals oa
theorem oa_appendReqFrom (r : PeerRef) (last : Nat) : Pres (Offs A) (appendReqFrom r last) := by
  unfold appendReqFrom
  pres (offsPo A) using oa_mod, oa_getPeer, oa_termForLog, oa_entriesFrom
  all_goals oa
theorem oa_createAppendReq (r : PeerRef) : Pres (Offs A) (createAppendReq r) := by
  unfold createAppendReq
  pres (offsPo A) using oa_mod, oa_die, oa_modPeer, oa_getPeer, oa_createSyncSnapshotReq, oa_appendReqFrom
  all_goals oa
theorem at_createSync (r : PeerRef) (i t c : Nat) (s : Srv) (g : s.At A) :
    Gives (fun q => q.At A) (createSyncSnapshotReq r i t c s).1 := by
  unfold createSyncSnapshotReq
  have h1 := oa_chooseSnap (A := A) r i s
  rcases hc : chooseSnap r i s with ⟨e | u, s1⟩
  · rw [run_bind_err hc]; intro a ha; cases ha
  rw [run_bind_ok hc, bind_get]
  rw [hc] at h1
  obtain ⟨_, _, h1⟩ := h1
  have g1 : s1.At A := (h1 g).1
  rcases hp : s1.peer r with _ | p
  · rw [run_bind_err (getPeer_none hp)]; intro a ha; cases ha
  rw [run_bind_ok (getPeer_some hp)]
  rcases hx : p.snpCtx with _ | ⟨snp, off⟩
  · intro a ha; cases ha
  simp only []
  split
  · intro a ha; cases ha
  split
  · intro a ha; cases ha
  · intro a ha
    cases ha
    intro q hq
    cases hq
    have gp : p.At A := by
      cases r with
      | member id => exact g1.peers p (List.mem_of_find?_eq_some hp)
      | joining => exact g1.joinee p hp
    exact gp snp off hx

theorem at_createAppend (r : PeerRef) (s : Srv) (g : s.At A) : Gives (fun q => q.At A) (createAppendReq r s).1 := by
  unfold createAppendReq
  rw [bind_get, bind_modPeer]
  have g1 : (s.setPeer r fun p => if p.nextIdx = 0 then { p with nextIdx := s.log.next } else p).At A :=
    setPeer_at r (fun p _ hp => by
      by_cases c : p.nextIdx = 0
      · rw [if_pos c]; exact hp
      · rw [if_neg c]; exact hp) g
  generalize (s.setPeer r fun p => if p.nextIdx = 0 then { p with nextIdx := s.log.next } else p) = s1 at g1 ⊢
  rcases hp : s1.peer r with _ | p
  · rw [run_bind_err (getPeer_none hp)]; intro a ha; cases ha
  rw [run_bind_ok (getPeer_some hp)]
  by_cases c1 : s.log.next ≤ p.nextIdx - 1
  · rw [if_pos c1]; intro a ha; cases ha
  rw [if_neg c1]
  by_cases c2 : 0 < p.nextIdx - 1 ∧ p.nextIdx - 1 < s.log.start - 1
  · rw [if_pos c2]
    exact at_createSync r (p.nextIdx - 1) s.term s.quickCommit s1 g1
  · rw [if_neg c2]
    unfold appendReqFrom
    intro a ha
    rcases ht : termForLog (p.nextIdx - 1) s1 with ⟨e | t, s2⟩
    · rw [run_bind_err ht] at ha; cases ha
    rw [run_bind_ok ht] at ha
    rcases hf : entriesFrom (p.nextIdx - 1) s2 with ⟨e | es, s3⟩
    · rw [run_bind_err hf] at ha; cases ha
    rw [run_bind_ok hf, bind_get] at ha
    rcases hg : s3.peer r with _ | p'
    · rw [run_bind_err (getPeer_none hg)] at ha; cases ha
    rw [run_bind_ok (getPeer_some hg)] at ha
    cases ha
    exact at_none rfl

theorem oa_requestAppend (r : PeerRef) : Pres (Offs A) (requestAppend r) := by
  unfold requestAppend
  refine pres_bind (offsPo A) (oa_getPeer _) fun p => pres_ite (pres_pure (offsPo A) _) (pres_bind (offsPo A) (oa_modPeer _ _ fun _ => ⟨rfl, .inl rfl⟩) fun _ => ?_)
  exact oa_sendOf (oa_createAppendReq r) (at_createAppend r) (pres_pure (offsPo A) _)
theorem oa_commitNotify (id : Int) : Pres (Offs A) (commitNotify id) := by
  unfold commitNotify
  pres (offsPo A) using oa_mod, oa_modPeer, oa_requestAppend
  all_goals oa
theorem oa_commit (target : Nat) : Pres (Offs A) (commit target) := by
  unfold commit
  pres (offsPo A) using oa_mod, oa_emit, oa_peerIds, oa_commitNotify
  all_goals oa
theorem oa_requestAppendTo (id : Int) : Pres (Offs A) (requestAppendTo id) := by
  unfold requestAppendTo
  pres (offsPo A) using oa_mod, oa_requestAppend
  all_goals oa
theorem oa_requestAppendAll  : Pres (Offs A) (requestAppendAll) := by
  unfold requestAppendAll
  pres (offsPo A) using oa_mod, oa_peerIds, oa_commit, oa_requestAppendTo
  all_goals oa
theorem oa_leaderPeer (id : Int) : Pres (Offs A) (leaderPeer id) := by
  unfold leaderPeer
  pres (offsPo A) using oa_mod, oa_modPeer, oa_enableHb
  all_goals oa
theorem oa_initialConf  : Pres (Offs A) (initialConf) := by
  unfold initialConf
  pres (offsPo A) using oa_mod, oa_logAppend
  all_goals oa
theorem oa_becomeLeader  : Pres (Offs A) (becomeLeader) := by
  unfold becomeLeader
  pres (offsPo A) using oa_mod, oa_emit, oa_peerIds, oa_stopElectionTimer, oa_requestAppendAll, oa_leaderPeer, oa_initialConf
  all_goals oa
theorem oa_askVote (ty : MsgType) (id : Int) : Pres (Offs A) (askVote ty id) := by
  unfold askVote
  pres (offsPo A) using oa_mod, oa_emit, oa_termForLog
  all_goals oa
theorem oa_voteSelf  : Pres (Offs A) (voteSelf) := by
  unfold voteSelf
  pres (offsPo A) using oa_mod, oa_saveState
  all_goals oa
theorem oa_askForVotes  : Pres (Offs A) (askForVotes) := by
  unfold askForVotes
  pres (offsPo A) using oa_mod, oa_peerIds, oa_becomeLeader, oa_askVote
  all_goals oa
theorem oa_requestVote  : Pres (Offs A) (requestVote) := by
  unfold requestVote
  pres (offsPo A) using oa_mod, oa_voteSelf, oa_askForVotes
  all_goals oa
theorem oa_startTerm  : Pres (Offs A) (startTerm) := by
  unfold startTerm
  pres (offsPo A) using oa_mod, oa_saveState
  all_goals oa
theorem oa_rearm  : Pres (Offs A) (rearm) := by
  unfold rearm
  pres (offsPo A) using oa_mod, oa_restartElectionTimer
  all_goals oa
theorem oa_becomeCandidate  : Pres (Offs A) (becomeCandidate) := by
  unfold becomeCandidate
  pres (offsPo A) using oa_mod, oa_requestVote, oa_startTerm, oa_rearm
  all_goals oa
theorem oa_requestPrevote  : Pres (Offs A) (requestPrevote) := by
  unfold requestPrevote
  pres (offsPo A) using oa_mod, oa_peerIds, oa_askVote, oa_becomeCandidate
  all_goals oa
theorem oa_leaveConfig  : Pres (Offs A) (leaveConfig) := by
  unfold leaveConfig
  pres (offsPo A) using oa_mod, oa_emit
  all_goals oa
theorem oa_handleElectionTimeout  : Pres (Offs A) (handleElectionTimeout) := by
  unfold handleElectionTimeout
  pres (offsPo A) using oa_mod, oa_die, oa_restartElectionTimer, oa_becomeCandidate, oa_requestPrevote, oa_leaveConfig
  all_goals oa
theorem oa_handleHbTimeout (r : PeerRef) : Pres (Offs A) (handleHbTimeout r) := by
  unfold handleHbTimeout
  pres (offsPo A) using oa_mod, oa_modPeer, oa_requestAppend
  all_goals oa
theorem oa_skipSame (idx : Nat) (es : List Entry) : Pres (Offs A) (skipSame idx es) := by
  induction es generalizing idx with
  | nil => exact pres_pure (offsPo A) _
  | cons e es ih =>
    unfold skipSame
    pres (offsPo A) using oa_mod, oa_termAt, ih
    all_goals oa
theorem oa_rollbackOld (idx : Nat) : Pres (Offs A) (rollbackOld idx) := by
  unfold rollbackOld
  pres (offsPo A) using oa_mod, oa_emit, oa_entryAt
  all_goals oa
theorem oa_noteNew (idx : Nat) (e : Entry) : Pres (Offs A) (noteNew idx e) := by
  unfold noteNew
  pres (offsPo A) using oa_mod, oa_emit
  all_goals oa
theorem oa_overwriteOld (idx : Nat) (es : List Entry) : Pres (Offs A) (overwriteOld idx es) := by
  induction es generalizing idx with
  | nil => exact pres_pure (offsPo A) _
  | cons e es ih =>
    unfold overwriteOld
    pres (offsPo A) using oa_mod, oa_rollbackOld, oa_noteNew, oa_logWriteAt, oa_emit, ih
    all_goals oa
theorem oa_appendNew (es : List Entry) : Pres (Offs A) (appendNew es) := by
  induction es with
  | nil => exact pres_pure (offsPo A) _
  | cons e es ih =>
    unfold appendNew
    pres (offsPo A) using oa_mod, oa_logAppend, oa_noteNew, oa_emit, ih
    all_goals oa
theorem oa_storeEntries (req : Req) : Pres (Offs A) (storeEntries req) := by
  unfold storeEntries
  pres (offsPo A) using oa_mod, oa_skipSame, oa_overwriteOld, oa_appendNew
  all_goals oa
theorem oa_hearLeader (req : Req) : Pres (Offs A) (hearLeader req) := by
  unfold hearLeader
  pres (offsPo A) using oa_mod, oa_die, oa_restartElectionTimer, oa_becomeFollower
  all_goals oa
theorem oa_logOkay (req : Req) : Pres (Offs A) (logOkay req) := by
  unfold logOkay
  pres (offsPo A) using oa_mod, oa_termForLog
  all_goals oa
theorem oa_handleAppendEntries (req : Req) : Pres (Offs A) (handleAppendEntries req) := by
  unfold handleAppendEntries
  pres (offsPo A) using oa_mod, oa_commit, oa_storeEntries, oa_hearLeader, oa_logOkay
  all_goals oa
theorem oa_handleVoteReq (req : Req) : Pres (Offs A) (handleVoteReq req) := by
  unfold handleVoteReq
  pres (offsPo A) using oa_mod, oa_saveState
  all_goals oa
theorem oa_handlePrevoteReq (req : Req) : Pres (Offs A) (handlePrevoteReq req) := by
  unfold handlePrevoteReq
  pres (offsPo A) using oa_mod, oa_emit
  all_goals oa
theorem oa_isLeader  : Pres (Offs A) (isLeader) := by
  unfold isLeader
  pres (offsPo A) using oa_mod, oa_emit
  all_goals oa
theorem oa_appendClient (es : List Entry) : Pres (Offs A) (appendClient es) := by
  induction es with
  | nil => exact pres_pure (offsPo A) _
  | cons e es ih =>
    unfold appendClient
    pres (offsPo A) using oa_mod, oa_logAppend, oa_noteNew, oa_emit, ih
    all_goals oa
theorem oa_handleCliReq (req : Req) : Pres (Offs A) (handleCliReq req) := by
  unfold handleCliReq
  pres (offsPo A) using oa_mod, oa_requestAppendAll, oa_isLeader, oa_appendClient
  all_goals oa
theorem oa_addPeer (c : SrvCfg) : Pres (Offs A) (addPeer c) := by
  unfold addPeer
  pres (offsPo A) using oa_mod, oa_modPeer, oa_enableHb
  all_goals oa
theorem oa_removePeer (c : Config) (id : Int) : Pres (Offs A) (removePeer c id) := by
  unfold removePeer
  pres (offsPo A) using oa_mod, oa_emit, oa_mod, oa_die
  all_goals oa
theorem oa_reconfigure (c : Config) : Pres (Offs A) (reconfigure c) := by
  unfold reconfigure
  pres (offsPo A) using oa_mod, oa_addPeer, oa_removePeer
  all_goals oa
theorem oa_installSnapshot (snp : Snap) : Pres (Offs A) (installSnapshot snp) := by
  unfold installSnapshot
  pres (offsPo A) using oa_mod, oa_emit, oa_mod, oa_die, oa_saveState, oa_logCompact, oa_restartElectionTimer, oa_stopElectionTimer, oa_reconfigure
  all_goals oa
theorem oa_handleSnapshotSync (q : SnpSync) : Pres (Offs A) (handleSnapshotSync q) := by
  unfold handleSnapshotSync
  pres (offsPo A) using oa_mod, oa_emit, oa_mod, oa_die, oa_installSnapshot
  all_goals oa
theorem oa_hearSnapshotLeader (req : Req) : Pres (Offs A) (hearSnapshotLeader req) := by
  unfold hearSnapshotLeader
  pres (offsPo A) using oa_mod, oa_die, oa_restartElectionTimer, oa_becomeFollower
  all_goals oa
theorem oa_handleInstallSnapshot (req : Req) : Pres (Offs A) (handleInstallSnapshot req) := by
  unfold handleInstallSnapshot
  pres (offsPo A) using oa_mod, oa_handleSnapshotSync, oa_hearSnapshotLeader
  all_goals oa
theorem oa_handleRmSrv (req : Req) : Pres (Offs A) (handleRmSrv req) := by
  unfold handleRmSrv
  pres (offsPo A) using oa_mod, oa_emit
  all_goals oa
theorem oa_inviteSrv  : Pres (Offs A) (inviteSrv) := by
  unfold inviteSrv
  pres (offsPo A) using oa_mod, oa_emit, oa_getPeer
  all_goals oa
theorem oa_handleAddSrv (req : Req) : Pres (Offs A) (handleAddSrv req) := by
  unfold handleAddSrv
  pres (offsPo A) using oa_mod, oa_inviteSrv
  all_goals oa
theorem oa_handleLogSync (req : Req) : Pres (Offs A) (handleLogSync req) := by
  unfold handleLogSync
  pres (offsPo A) using oa_mod, oa_logApplyPack, oa_commit
  all_goals oa
theorem oa_handleJoin (req : Req) : Pres (Offs A) (handleJoin req) := by
  unfold handleJoin
  pres (offsPo A) using oa_mod, oa_saveState, oa_reconfigure
  all_goals oa
theorem oa_handleLeave (req : Req) : Pres (Offs A) (handleLeave req) := by
  unfold handleLeave
  pres (offsPo A) using oa_mod, oa_emit
  all_goals oa
theorem oa_hearTerm (req : Req) : Pres (Offs A) (hearTerm req) := by
  unfold hearTerm
  pres (offsPo A) using oa_mod, oa_updateTerm
  all_goals oa
theorem oa_acceptedResp (resp : Resp) : Pres (Offs A) (acceptedResp resp) := by
  unfold acceptedResp
  pres (offsPo A) using oa_mod, oa_modPeer, oa_getPeer, oa_commit
  all_goals oa
theorem oa_refusedResp (resp : Resp) : Pres (Offs A) (refusedResp resp) := by
  unfold refusedResp
  pres (offsPo A) using oa_mod, oa_modPeer
  all_goals oa
theorem oa_handleAppendResp (resp : Resp) : Pres (Offs A) (handleAppendResp resp) := by
  unfold handleAppendResp
  pres (offsPo A) using oa_mod, oa_requestAppendTo, oa_acceptedResp, oa_refusedResp
  all_goals oa
theorem oa_acceptedSnpResp (resp : Resp) (s : Srv) (ha : s.Fits A (.member resp.src) resp.nextIdx) : Offs A s (acceptedSnpResp resp s).2 := by
  unfold acceptedSnpResp
  rcases hp : s.peer (.member resp.src) with _ | p
  · rw [run_bind_err (getPeer_none hp)]; exact (offsPo A).refl s
  rw [run_bind_ok (getPeer_some hp)]
  rcases hc : p.snpCtx with _ | ⟨snp, off⟩
  · exact (offsPo A).refl s
  simp only []
  by_cases h : snp.size ≤ resp.nextIdx
  · rw [if_pos h]
    refine pres_bind (offsPo A) (oa_modPeer _ _ (by intro _; exact ⟨rfl, .inr (.inl rfl)⟩)) (fun _ => ?_) s
    pres (offsPo A) using oa_mod
  · rw [if_neg h, bind_modPeer]
    exact (offsPo A).trans (oa_move hp hc ha) ((offsPo A).refl _)
theorem oa_handleSnpResp (resp : Resp) (s : Srv) (ha : resp.accepted = true → s.Fits A (.member resp.src) resp.nextIdx) :
    Offs A s (handleSnpResp resp s).2 := by
  unfold handleSnpResp
  rw [bind_get]
  by_cases h0 : (s.findPeer resp.src).isNone
  · rw [if_pos h0]; exact (offsPo A).refl s
  rw [if_neg h0]
  have hk : ∀ more : Bool, Pres (Offs A) (do let s ← get; if s.role = .leader ∧ more = true then requestAppendTo resp.src else pure () : R Unit) := by
    intro more
    pres (offsPo A) using oa_requestAppendTo
  by_cases h : resp.accepted = true
  · rw [if_pos h]
    have h1 := oa_acceptedSnpResp resp s (ha h)
    rcases hc : acceptedSnpResp resp s with ⟨e | b, s1⟩
    · rw [run_bind_err hc]; rw [hc] at h1; exact h1
    · rw [run_bind_ok hc]; rw [hc] at h1; exact (offsPo A).trans h1 (hk b s1)
  · rw [if_neg h]
    exact hk true s
theorem oa_handleVotingResp (resp : Resp) : Pres (Offs A) (handleVotingResp resp) := by
  unfold handleVotingResp
  pres (offsPo A) using oa_mod, oa_becomeLeader
  all_goals oa
theorem oa_dispatchResp (resp : Resp) (s : Srv) (ha : resp.type = .snpResp → resp.accepted = true → s.Fits A (.member resp.src) resp.nextIdx) :
    Offs A s (dispatchResp resp s).2 := by
  by_cases h : resp.type = .snpResp
  · have : dispatchResp resp s = handleSnpResp resp s := by
      unfold dispatchResp
      rw [h]
    rw [this]
    exact oa_handleSnpResp resp s (ha h)
  · have : Pres (Offs A) (dispatchResp resp) := by
      unfold dispatchResp
      split
      · exact oa_handleVotingResp resp
      · exact oa_handleAppendResp resp
      · exact absurd (by assumption) h
      · exact oa_die _
    exact this s
theorem oa_handlePeerResp (resp : Resp) (s : Srv) (ha : resp.type = .snpResp → resp.accepted = true → s.Fits A (.member resp.src) resp.nextIdx) :
    Offs A s (handlePeerResp resp s).2 := by
  unfold handlePeerResp
  rw [bind_get]
  by_cases h0 : (s.findPeer resp.src).isNone
  · rw [if_pos h0]; exact (offsPo A).refl s
  rw [if_neg h0, bind_modPeer]
  refine (offsPo A).trans (oa_modPeer (.member resp.src) (fun p => { p with lastResp := s.now }) (fun _ => ⟨rfl, .inl rfl⟩) s) ?_
  show Offs A (s.setPeer (.member resp.src) fun p => { p with lastResp := s.now }) _
  have ha : resp.type = .snpResp → resp.accepted = true →
      (s.setPeer (.member resp.src) fun p => { p with lastResp := s.now }).Fits A (.member resp.src) resp.nextIdx :=
    fun h1 h2 => fits_setPeer (f := fun p => { p with lastResp := s.now }) (fun _ => ⟨rfl, rfl⟩) (ha h1 h2)
  generalize (s.setPeer (.member resp.src) fun p => { p with lastResp := s.now }) = s1 at ha ⊢
  by_cases h1 : s1.term < resp.term
  · have h2 := oa_updateTerm (A := A) resp.term s1
    rw [run_updateTerm_gt h1] at h2
    rw [run_bind_ok (run_updateTerm_gt h1)]
    exact h2
  · rw [run_bind_ok (run_updateTerm_le (Nat.le_of_not_lt h1))]
    exact oa_dispatchResp resp s1 ha
theorem oa_handlePrevoteResp (resp : Resp) : Pres (Offs A) (handlePrevoteResp resp) := by
  unfold handlePrevoteResp
  pres (offsPo A) using oa_mod, oa_restartElectionTimer, oa_becomeCandidate
  all_goals oa
theorem oa_addToConfig  : Pres (Offs A) (addToConfig) := by
  unfold addToConfig
  pres (offsPo A) using oa_mod, oa_logAppend, oa_requestAppendAll
  all_goals oa
theorem oa_syncLogToNewSrv (i : Nat) : Pres (Offs A) (syncLogToNewSrv i) := by
  unfold syncLogToNewSrv
  refine pres_getBind fun s => ?_
  by_cases h1 : toI32 (subU64 s.quickCommit i) < s.params.logSyncGap
  · rw [if_pos h1]; exact oa_addToConfig s
  rw [if_neg h1]
  by_cases h2 : 0 < i ∧ i < s.log.start
  · rw [if_pos h2]
    exact oa_sendOf (k := pure ()) (oa_createSyncSnapshotReq _ _ _ _) (at_createSync _ _ _ _) (pres_pure (offsPo A) _) s
  rw [if_neg h2]
  by_cases h3 : i < s.log.start
  · rw [if_pos h3]; exact (offsPo A).refl s
  rw [if_neg h3]
  rcases hk : packOf s.log i (min (toI32 (subU64 s.quickCommit i)) s.params.logSyncBatch) with _ | es
  · exact (offsPo A).refl s
  show Offs A s ((getPeer .joining >>= fun p => emit (.send _)) s).2
  rcases hp : s.peer .joining with _ | p
  · rw [run_bind_err (getPeer_none hp)]; exact (offsPo A).refl s
  rw [run_bind_ok (getPeer_some hp)]
  exact oa_send (fun _ => at_none rfl)
theorem oa_rmSrvFromCluster (id : Int) : Pres (Offs A) (rmSrvFromCluster id) := by
  unfold rmSrvFromCluster
  pres (offsPo A) using oa_mod, oa_logAppend, oa_requestAppendAll
  all_goals oa
theorem oa_handleExtSnpResp (resp : Resp) (s : Srv) (ha : resp.accepted = true → s.Fits A .joining resp.nextIdx) :
    Offs A s (handleExtSnpResp resp s).2 := by
  unfold handleExtSnpResp
  rw [bind_get]
  rcases hp : s.srvToJoin with _ | p
  · exact (offsPo A).refl s
  simp only []
  by_cases h : resp.accepted = false
  · rw [if_pos h]; exact (offsPo A).refl s
  rw [if_neg h]
  rcases hc : p.snpCtx with _ | ⟨snp, off⟩
  · exact oa_die _ s
  simp only []
  have hk : Pres (Offs A) (do let q ← getPeer .joining; syncLogToNewSrv q.nextIdx : R Unit) := by
    pres (offsPo A) using oa_getPeer, oa_syncLogToNewSrv
  by_cases h2 : snp.size ≤ resp.nextIdx
  · rw [if_pos h2]
    exact pres_bind (offsPo A) (oa_modPeer _ _ (by intro _; exact ⟨rfl, .inr (.inl rfl)⟩)) (fun _ => hk) s
  · rw [if_neg h2, bind_modPeer]
    exact (offsPo A).trans (oa_move (r := .joining) hp hc (ha (by simpa using h))) (hk _)
theorem oa_handleExtResp (resp : Resp) (s : Srv) (ha : resp.type = .snpResp → resp.accepted = true → s.Fits A .joining resp.nextIdx) :
    Offs A s (handleExtResp resp s).2 := by
  by_cases h : resp.type = .snpResp
  · have : handleExtResp resp s = handleExtSnpResp resp s := by
      unfold handleExtResp
      rw [bind_get, h]
    rw [this]
    exact oa_handleExtSnpResp resp s (ha h)
  · have : Pres (Offs A) (handleExtResp resp) := by
      unfold handleExtResp
      pres (offsPo A) using oa_mod, oa_die, oa_modPeer, oa_handlePrevoteResp, oa_syncLogToNewSrv, oa_rmSrvFromCluster
      all_goals first | (exact absurd (by assumption) h) | oa
    exact this s
theorem oa_forceRemove (id : Int) : Pres (Offs A) (forceRemove id) := by
  unfold forceRemove
  pres (offsPo A) using oa_mod, oa_rmSrvFromCluster
  all_goals oa
theorem oa_handleExtErr (req : Req) : Pres (Offs A) (handleExtErr req) := by
  unfold handleExtErr
  pres (offsPo A) using oa_mod, oa_modPeer, oa_forceRemove
  all_goals oa
theorem oa_rpcResult (r : PeerRef) (ty : MsgType) (ok : Bool) : Pres (Offs A) (rpcResult r ty ok) := by
  unfold rpcResult
  pres (offsPo A) using oa_mod, oa_modPeer
  all_goals oa
theorem oa_commitConf (c : Config) : Pres (Offs A) (commitConf c) := by
  unfold commitConf
  pres (offsPo A) using oa_mod, oa_emit, oa_reconfigure
  all_goals oa
theorem oa_findConf (idx n : Nat) (c : Config) : Pres (Offs A) (findConf idx n c) := by
  induction n generalizing c with
  | zero => exact pres_throw (offsPo A) _
  | succ n ih =>
    unfold findConf
    pres (offsPo A) using oa_mod, oa_entryAt, oa_mod, oa_die, ih
    all_goals oa
theorem oa_confForSnap (idx : Nat) : Pres (Offs A) (confForSnap idx) := by
  unfold confForSnap
  pres (offsPo A) using oa_mod, oa_die, oa_findConf
  all_goals oa
theorem oa_startSnapshot (idx : Nat) : Pres (Offs A) (startSnapshot idx) := by
  unfold startSnapshot
  pres (offsPo A) using oa_mod, oa_emit, oa_termAt, oa_confForSnap
  all_goals oa
theorem oa_snapshotAndCompact (idx : Nat) : Pres (Offs A) (snapshotAndCompact idx) := by
  unfold snapshotAndCompact
  pres (offsPo A) using oa_mod, oa_startSnapshot
  all_goals oa
theorem oa_keepSnap (snp : Snap) : Pres (Offs A) (keepSnap snp) := by
  unfold keepSnap
  pres (offsPo A) using oa_mod, oa_emit
  all_goals oa
theorem oa_onSnapshotCompleted (snp : Snap) (ok : Bool) : Pres (Offs A) (onSnapshotCompleted snp ok) := by
  unfold onSnapshotCompleted
  pres (offsPo A) using oa_mod, oa_logCompact
  all_goals oa
theorem oa_applyEntry (i : Nat) (e : Entry) : Pres (Offs A) (applyEntry i e) := by
  unfold applyEntry
  pres (offsPo A) using oa_mod, oa_emit, oa_commitConf
  all_goals oa
theorem oa_applyOne  : Pres (Offs A) (applyOne) := by
  unfold applyOne
  pres (offsPo A) using oa_mod, oa_entryToApply, oa_snapshotAndCompact, oa_applyEntry
  all_goals oa
theorem oa_replicateLog (data : Nat) : Pres (Offs A) (replicateLog data) := by
  unfold replicateLog
  pres (offsPo A) using oa_mod, oa_logAppend, oa_requestAppendAll, oa_isLeader
  all_goals oa

theorem oa_dispatch (r : Req) : Pres (Offs A) (dispatch r) := by
  unfold dispatch handleExtended
  pres (offsPo A) using oa_mod, oa_handleAppendEntries, oa_handleVoteReq, oa_handleCliReq, oa_handleAddSrv, oa_handleRmSrv, oa_handleLogSync,
    oa_handlePrevoteReq, oa_mod, oa_die, oa_handleJoin, oa_handleInstallSnapshot, oa_handleLeave

/-- A snapshot answer that names the offset `o` for server `j`: an accepted answer of a member `j`, or of any server if it is the answer to a
request to a server that joins. -/
def Input.acks (j : Int) (o : Nat) : Input → Prop
  | .peerResp _ r => r.type = .snpResp ∧ r.accepted = true ∧ r.src = j ∧ r.nextIdx = o
  | .extResp _ _ r => r.type = .snpResp ∧ r.accepted = true ∧ r.nextIdx = o
  | _ => False

/-- `A` holds for the offset that an answer names, for the snapshot that is being sent to the server. -/
def Input.Fits (A : Int → Snap → Nat → Prop) (s : Srv) : Input → Prop
  | .peerResp _ r => r.type = .snpResp → r.accepted = true → s.Fits A (.member r.src) r.nextIdx
  | .extResp _ _ r => r.type = .snpResp → r.accepted = true → s.Fits A .joining r.nextIdx
  | _ => True

theorem heard_keeps (b : Bool) (pr : Params) (p : Peer) :
    ((if b then resumeHb pr else slowDownHb pr) p).cfg = p.cfg ∧ ((if b then resumeHb pr else slowDownHb pr) p).snpCtx = p.snpCtx := by
  cases b
  · unfold slowDownHb; exact ⟨rfl, rfl⟩
  · unfold resumeHb; exact ⟨rfl, rfl⟩

/-- The first part of handling an answer. -/
theorem rpcResult_fits {s : Srv} (r r' : PeerRef) (ty : MsgType) (ok : Bool) {o : Nat} (h : s.Fits A r' o) :
    (rpcResult r ty ok s).1 = .ok ⟨⟩ ∧ (rpcResult r ty ok s).2.Fits A r' o := by
  unfold rpcResult
  rw [bind_get, bind_modPeer]
  refine ⟨rfl, ?_⟩
  show (((s.setPeer r _).setPeer r _)).Fits A r' o
  refine fits_setPeer (fun p => heard_keeps ok s.params p) (fits_setPeer (fun p => ?_) h)
  split
  · exact ⟨rfl, rfl⟩
  · exact ⟨rfl, rfl⟩

theorem rpcResult_ok (s : Srv) (r : PeerRef) (ty : MsgType) (ok : Bool) : ∃ s1, rpcResult r ty ok s = (.ok ⟨⟩, s1) := by
  unfold rpcResult
  rw [bind_get, bind_modPeer]
  exact ⟨_, rfl⟩

/-- Every input; requests that are sent again had such an offset before. -/
theorem oa_run {x : Input} (hx : ∀ r, x = .retry r → r.At A) (s : Srv) (ha : x.Fits A s) : Offs A s (x.run s).2 := by
  cases x with
  | req r =>
    show Offs A s ((processReq r >>= fun resp => emit (.reply resp)) s).2
    unfold processReq
    exact pres_bind (offsPo A) (pres_bind (offsPo A) (oa_hearTerm r) fun _ => oa_dispatch r) (fun q => oa_emit _ rfl) s
  | peerResp ty r =>
    show Offs A s ((rpcResult (.member r.src) ty true >>= fun _ => handlePeerResp r) s).2
    obtain ⟨s1, h1⟩ := rpcResult_ok s (.member r.src) ty true
    have h2 := oa_rpcResult (A := A) (.member r.src) ty true s
    rw [run_bind_ok h1]
    rw [h1] at h2
    exact (offsPo A).trans h2 (oa_handlePeerResp r s1 fun a b => (by
      have := (rpcResult_fits (.member r.src) (.member r.src) ty true (ha a b)).2
      rw [h1] at this
      exact this))
  | extResp p ty r =>
    show Offs A s ((rpcResult p ty true >>= fun _ => handleExtResp r) s).2
    obtain ⟨s1, h1⟩ := rpcResult_ok s p ty true
    have h2 := oa_rpcResult (A := A) p ty true s
    rw [run_bind_ok h1]
    rw [h1] at h2
    exact (offsPo A).trans h2 (oa_handleExtResp r s1 fun a b => (by
      have := (rpcResult_fits p .joining ty true (ha a b)).2
      rw [h1] at this
      exact this))
  | peerErr r => exact oa_rpcResult _ _ _ s
  | extErr p r => exact pres_bind (offsPo A) (oa_rpcResult _ _ _) (fun _ => oa_handleExtErr r) s
  | retry r =>
    show Offs A s (retryReq r s).2
    unfold retryReq
    split
    · exact oa_send fun _ => hx r rfl
    · exact (offsPo A).refl s
  | electionTimeout => exact oa_handleElectionTimeout s
  | hbTimeout id => exact oa_handleHbTimeout _ s
  | apply => exact oa_applyOne s
  | snapDone q ok =>
    exact pres_ite (pres_bind (offsPo A) (oa_keepSnap q) fun _ => oa_onSnapshotCompleted q true) (oa_onSnapshotCompleted q false) s
  | replicate d => exact pres_bind (offsPo A) (oa_replicateLog d) (fun _ => pres_pure (offsPo A) _) s
  | tick n => exact oa_same rfl rfl (.inl rfl)

end Cs.Raft
