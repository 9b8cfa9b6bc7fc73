import Verif.Raft.Pres

/-!
# What sending to the peers changes

`Frame s s'`: `s'` differs from `s` only in the peers (not their ids) and in requests sent, each of them one that the state
`s` calls for (`Sends`).
-/

namespace Cs.Raft
open Cs

/-! ## Running primitives -/

theorem bind_get {α : Type} (k : Srv → R α) (s : Srv) : (get >>= k) s = k s s := rfl
theorem bind_modify {α : Type} (f : Srv → Srv) (k : PUnit → R α) (s : Srv) : (modify f >>= k) s = k ⟨⟩ (f s) := rfl
theorem bind_pure {α β : Type} (a : α) (k : α → R β) (s : Srv) : ((pure a : R α) >>= k) s = k a s := rfl
theorem bind_emit {α : Type} (e : Eff) (k : Unit → R α) (s : Srv) :
    (emit e >>= k) s = k ⟨⟩ { s with trace := s.trace ++ [e] } := rfl
theorem bind_modPeer {α : Type} (r : PeerRef) (f : Peer → Peer) (k : Unit → R α) (s : Srv) :
    (modPeer r f >>= k) s = k ⟨⟩ (s.setPeer r f) := rfl
theorem run_emit (e : Eff) (s : Srv) : emit e s = (.ok ⟨⟩, { s with trace := s.trace ++ [e] }) := rfl
theorem run_modPeer (r : PeerRef) (f : Peer → Peer) (s : Srv) : modPeer r f s = (.ok ⟨⟩, s.setPeer r f) := rfl
theorem run_die {α : Type} (c : Int) (s : Srv) :
    (die c : R α) s = (.error (.exit c), { s with trace := s.trace ++ [.exit c] }) := rfl
theorem bind_die {α β : Type} (c : Int) (k : α → R β) (s : Srv) :
    ((die c : R α) >>= k) s = (.error (.exit c), { s with trace := s.trace ++ [.exit c] }) := rfl
theorem bind_throw {α β : Type} (c : Fault) (k : α → R β) (s : Srv) :
    ((throw c : R α) >>= k) s = (.error c, s) := rfl
theorem bind_saveState {α : Type} (k : Unit → R α) (s : Srv) :
    (saveState >>= k) s = k ⟨⟩ { s with trace := s.trace ++ [.saveState s.term s.vote] } := rfl
theorem run_saveState (s : Srv) :
    saveState s = (.ok ⟨⟩, { s with trace := s.trace ++ [.saveState s.term s.vote] }) := rfl
theorem bind_peerIds {α : Type} (k : List Int → R α) (s : Srv) : (peerIds >>= k) s = k (s.peers.map Peer.id) s := rfl

theorem getPeer_some {s : Srv} {r : PeerRef} {p : Peer} (h : s.peer r = some p) : getPeer r s = (.ok p, s) := by
  unfold getPeer; rw [bind_get, h]; rfl
theorem getPeer_none {s : Srv} {r : PeerRef} (h : s.peer r = none) : getPeer r s = (.error .ub, s) := by
  unfold getPeer; rw [bind_get, h]; rfl

/-! ## Terms -/

/-- The term of the entry at an index, as far as the server knows it: from the log, or from the last snapshot. -/
def termFor (s : Srv) (i : Nat) : Option Nat :=
  if i = 0 then some 0
  else if s.log.start ≤ i then (s.log.get? i).map Entry.term
  else match s.smSnap with
    | some snp => if i = snp.lastIdx then some snp.lastTerm else none
    | none => none

theorem termForLog_some {s : Srv} {i t : Nat} (h : termFor s i = some t) : termForLog i s = (.ok t, s) := by
  unfold termFor at h
  unfold termForLog
  rw [bind_get]
  by_cases h0 : i = 0
  · rw [if_pos h0] at h ⊢; cases h; rfl
  rw [if_neg h0] at h ⊢
  by_cases h1 : s.log.start ≤ i
  · rw [if_pos h1] at h ⊢
    unfold termAt
    rw [bind_get]
    rcases hg : s.log.get? i with _ | e
    · rw [hg] at h; cases h
    · rw [hg] at h; cases h; rfl
  rw [if_neg h1] at h ⊢
  rcases hs : s.smSnap with _ | snp
  · rw [hs] at h; cases h
  · rw [hs] at h
    simp only [] at h ⊢
    by_cases h2 : i = snp.lastIdx
    · rw [if_pos h2] at h; rw [if_neg (by simpa using h2)]; cases h; rfl
    · rw [if_neg h2] at h; cases h

theorem termForLog_none {s : Srv} {i : Nat} (h : termFor s i = none) :
    (s.log.start ≤ i ∧ termForLog i s = (.error .thrown, s)) ∨
    (i < s.log.start ∧ i ≠ 0 ∧
      termForLog i s = (.error (.exit (-1)), { s with trace := s.trace ++ [.exit (-1)] })) := by
  unfold termFor at h
  unfold termForLog
  rw [bind_get]
  by_cases h0 : i = 0
  · rw [if_pos h0] at h; cases h
  rw [if_neg h0] at h ⊢
  by_cases h1 : s.log.start ≤ i
  · rw [if_pos h1] at h ⊢
    left
    refine ⟨h1, ?_⟩
    unfold termAt
    rw [bind_get]
    rcases hg : s.log.get? i with _ | e
    · rfl
    · rw [hg] at h; cases h
  rw [if_neg h1] at h ⊢
  right
  refine ⟨by omega, h0, ?_⟩
  have key : (match s.smSnap with
      | some snp => if i ≠ snp.lastIdx then die (-1) else pure snp.lastTerm
      | none => die (-1) : R Nat) = die (-1) := by
    split
    · rename_i snp hs
      rw [hs] at h
      simp only [] at h
      by_cases h2 : i = snp.lastIdx
      · rw [if_pos h2] at h; cases h
      · rw [if_pos h2]
    · rfl
  exact congrArg (fun m : R Nat => m s) key

/-- The entries behind `last` that go into a request. -/
def Srv.behind (s : Srv) (last : Nat) : List Entry :=
  if s.log.next ≤ last + 1 then [] else s.log.range (last + 1) (min s.log.next (last + 1 + s.params.maxAppend))

theorem entriesFrom_ok {s : Srv} {i : Nat} (h : s.log.next ≤ i + 1 ∨ s.log.start ≤ i + 1) :
    entriesFrom i s = (.ok (s.behind i), s) := by
  unfold entriesFrom Srv.behind
  rw [bind_get]
  by_cases h1 : s.log.next ≤ i + 1
  · rw [if_pos h1, if_pos h1]; rfl
  · rw [if_neg h1, if_neg h1, if_neg (by omega)]; rfl

theorem entriesFrom_err {s : Srv} {i : Nat} (h : ¬(s.log.next ≤ i + 1 ∨ s.log.start ≤ i + 1)) :
    entriesFrom i s = (.error .thrown, s) := by
  unfold entriesFrom
  rw [bind_get, if_neg (by omega), if_pos (by omega)]; rfl

/-! ## Requests a state calls for -/

/-- Requests sent by the loops over the peers. -/
inductive Sends (s : Srv) : Req → Prop
  | append (dst : Int) (last t : Nat) : last < s.log.next → termFor s last = some t →
      s.log.next ≤ last + 1 ∨ s.log.start ≤ last + 1 →
      Sends s { type := .appendReq, term := s.term, src := s.id, dst := dst, lastTerm := t, lastIdx := last,
                commitIdx := s.quickCommit,
                entries := s.behind last }
  | snapshot (dst : Int) (last : Nat) (snp : Snap) (q : SnpSync) : 0 < last → last < s.log.start - 1 →
      Sends s { type := .snpReq, term := s.term, src := s.id, dst := dst, lastTerm := snp.lastTerm, lastIdx := snp.lastIdx,
                commitIdx := s.quickCommit, entries := [⟨s.term, .snpSync⟩], sync := some q }
  | vote (ty : MsgType) (dst : Int) (t : Nat) : (ty = .voteReq ∨ ty = .prevoteReq) →
      termFor s (s.log.next - 1) = some t →
      Sends s { type := ty, term := s.term, src := s.id, dst := dst, lastTerm := t, lastIdx := s.log.next - 1,
                commitIdx := s.quickCommit }

/-- `s'` is `s` with other peers (with the same ids) and requests sent. `ty` are the types of the requests. -/
def Frame (ty : MsgType → Prop) (s s' : Srv) : Prop :=
  ∃ (ps : List Peer) (j : Option Peer) (es : List Eff),
    s' = { s with peers := ps, srvToJoin := j, trace := s.trace ++ es } ∧ ps.map Peer.cfg = s.peers.map Peer.cfg ∧
    (j.map Peer.cfg = s.srvToJoin.map Peer.cfg) ∧
    ∀ e ∈ es, e = .exit (-1) ∨ ∃ r, e = .send r ∧ Sends s r ∧ ty r.type

theorem Sends.congr {s s' : Srv} (h1 : s'.log = s.log) (h2 : s'.term = s.term) (h3 : s'.id = s.id)
    (h4 : s'.quickCommit = s.quickCommit) (h5 : s'.params = s.params) (h6 : s'.smSnap = s.smSnap) {r : Req}
    (h : Sends s r) : Sends s' r := by
  have ht : ∀ i, termFor s' i = termFor s i := by intro i; unfold termFor; rw [h1, h6]
  cases h with
  | append dst last t ha hb hc =>
    have he : s'.behind last = s.behind last := by unfold Srv.behind; rw [h1, h5]
    rw [← he, ← h2, ← h3, ← h4]
    exact .append dst last t (by rw [h1]; exact ha) (by rw [ht]; exact hb) (by rw [h1]; exact hc)
  | snapshot dst last snp q ha hb =>
    rw [← h2, ← h3, ← h4]
    exact .snapshot dst last snp q ha (by rw [h1]; exact hb)
  | vote ty dst t ha hb =>
    rw [← h1, ← h2, ← h3, ← h4]
    exact .vote ty dst t ha (by rw [ht, h1]; exact hb)

theorem Frame.refl (ty) (s : Srv) : Frame ty s s :=
  ⟨s.peers, s.srvToJoin, [], by rw [List.append_nil], rfl, rfl, by simp⟩

theorem Frame.trans {ty} {a b c : Srv} (h1 : Frame ty a b) (h2 : Frame ty b c) : Frame ty a c := by
  obtain ⟨p1, j1, e1, rfl, q1, r1, g1⟩ := h1
  obtain ⟨p2, j2, e2, rfl, q2, r2, g2⟩ := h2
  refine ⟨p2, j2, e1 ++ e2, by rw [List.append_assoc], q2.trans q1, r2.trans r1, ?_⟩
  intro e he
  rcases List.mem_append.1 he with he | he
  · exact g1 e he
  · rcases g2 e he with h | ⟨r, h, hs, ht⟩
    · exact .inl h
    · exact .inr ⟨r, h, hs.congr (by rfl) (by rfl) (by rfl) (by rfl) (by rfl) (by rfl), ht⟩

theorem Frame.po (ty) : PO (Frame ty) := ⟨Frame.refl ty, Frame.trans⟩

theorem Frame.setPeer (ty) (s : Srv) (r : PeerRef) (f : Peer → Peer) (hf : ∀ p, (f p).cfg = p.cfg) :
    Frame ty s (s.setPeer r f) := by
  cases r with
  | member id =>
    refine ⟨s.peers.map fun p => if p.id == id then f p else p, s.srvToJoin, [], ?_, ?_, rfl, by simp⟩
    · unfold Srv.setPeer; rw [List.append_nil]
    · rw [List.map_map]
      apply List.map_congr_left
      intro p _
      show (if p.id == id then f p else p).cfg = p.cfg
      split
      · exact hf p
      · rfl
  | joining =>
    refine ⟨s.peers, s.srvToJoin.map f, [], ?_, rfl, ?_, by simp⟩
    · unfold Srv.setPeer; rw [List.append_nil]
    · cases s.srvToJoin with
      | none => rfl
      | some p => show some _ = some _; rw [hf p]

theorem Frame.send {ty} {s : Srv} {r : Req} (h : Sends s r) (ht : ty r.type) :
    Frame ty s { s with trace := s.trace ++ [.send r] } :=
  ⟨s.peers, s.srvToJoin, [.send r], rfl, rfl, rfl, by
    intro e he; rw [List.mem_singleton] at he; exact .inr ⟨r, he, h, ht⟩⟩

theorem Frame.died (ty) (s : Srv) : Frame ty s { s with trace := s.trace ++ [.exit (-1)] } :=
  ⟨s.peers, s.srvToJoin, [.exit (-1)], rfl, rfl, rfl, by
    intro e he; rw [List.mem_singleton] at he; exact .inl he⟩

theorem Frame.mono {ty ty' : MsgType → Prop} {s s' : Srv} (h : Frame ty s s') (hm : ∀ t, ty t → ty' t) :
    Frame ty' s s' := by
  obtain ⟨p, j, e, h1, h2, h3, h4⟩ := h
  refine ⟨p, j, e, h1, h2, h3, fun x hx => ?_⟩
  rcases h4 x hx with h | ⟨r, a, b, c⟩
  · exact .inl h
  · exact .inr ⟨r, a, b, hm _ c⟩

/-! Consequences. -/
section
variable {ty : MsgType → Prop} {s s' : Srv}
theorem Frame.id (h : Frame ty s s') : s'.id = s.id := by obtain ⟨_, _, _, rfl, _⟩ := h; rfl
theorem Frame.term (h : Frame ty s s') : s'.term = s.term := by obtain ⟨_, _, _, rfl, _⟩ := h; rfl
theorem Frame.vote (h : Frame ty s s') : s'.vote = s.vote := by obtain ⟨_, _, _, rfl, _⟩ := h; rfl
theorem Frame.role (h : Frame ty s s') : s'.role = s.role := by obtain ⟨_, _, _, rfl, _⟩ := h; rfl
theorem Frame.log (h : Frame ty s s') : s'.log = s.log := by obtain ⟨_, _, _, rfl, _⟩ := h; rfl
theorem Frame.quickCommit (h : Frame ty s s') : s'.quickCommit = s.quickCommit := by obtain ⟨_, _, _, rfl, _⟩ := h; rfl
theorem Frame.smCommit (h : Frame ty s s') : s'.smCommit = s.smCommit := by obtain ⟨_, _, _, rfl, _⟩ := h; rfl
theorem Frame.cfgs (h : Frame ty s s') : s'.peers.map Peer.cfg = s.peers.map Peer.cfg := by
  obtain ⟨_, _, _, rfl, hc, _⟩ := h; exact hc
theorem Frame.ids (h : Frame ty s s') : s'.peers.map Peer.id = s.peers.map Peer.id := by
  have := congrArg (List.map SrvCfg.id) h.cfgs
  rw [List.map_map, List.map_map] at this
  exact this
end

/-! ## The loops over the peers -/

/-- Append and snapshot requests. -/
def isRepl (t : MsgType) : Prop := t = .appendReq ∨ t = .snpReq
/-- Vote and pre-vote requests. -/
def isPoll (t : MsgType) : Prop := t = .voteReq ∨ t = .prevoteReq

theorem getPeer_frame (ty) (r : PeerRef) : Pres (Frame ty) (getPeer r) := by
  unfold getPeer
  pres (Frame.po ty) using pres_ite

theorem modPeer_frame (ty) (r : PeerRef) (f : Peer → Peer) (hf : ∀ p, (f p).cfg = p.cfg) :
    Pres (Frame ty) (modPeer r f) := fun s => Frame.setPeer ty s r f hf

theorem die_frame {α : Type} (ty) : Pres (Frame ty) (die (-1) : R α) := fun s => Frame.died ty s

theorem chooseSnap_frame (ty) (r : PeerRef) (i : Nat) : Pres (Frame ty) (chooseSnap r i) := by
  unfold chooseSnap
  pres (Frame.po ty) using getPeer_frame, modPeer_frame, die_frame
  rfl

/-- The result of a run satisfies `P`. -/
def Gives {α : Type} (P : α → Prop) (x : Except Fault α) : Prop := ∀ a, x = .ok a → P a

theorem createSync_frame (ty) (r : PeerRef) (i t c : Nat) (s : Srv) :
    Frame ty s (createSyncSnapshotReq r i t c s).2 ∧
    Gives (fun q => ∃ (dst : Int) (snp : Snap) (y : SnpSync), q = ({
        type := .snpReq, term := t, src := s.id, dst := dst, lastTerm := snp.lastTerm,
        lastIdx := snp.lastIdx, commitIdx := c, entries := [⟨t, .snpSync⟩], sync := some y } : Req))
      (createSyncSnapshotReq r i t c s).1 := by
  unfold createSyncSnapshotReq
  have h1 := chooseSnap_frame ty r i s
  rw [run_bind]
  rcases hc : chooseSnap r i s with ⟨e | u, s1⟩
  · rw [hc] at h1; exact ⟨h1, by intro a ha; cases ha⟩
  rw [hc] at h1
  simp only [] at h1 ⊢
  rw [bind_get]
  rcases hp : s1.peer r with _ | p
  · rw [run_bind_err (getPeer_none hp)]; exact ⟨h1, by intro a ha; cases ha⟩
  rw [run_bind_ok (getPeer_some hp)]
  rcases hx : p.snpCtx with _ | ⟨snp, off⟩
  · exact ⟨h1, by intro a ha; cases ha⟩
  simp only []
  split
  · exact ⟨h1, by intro a ha; cases ha⟩
  split
  · exact ⟨h1.trans (Frame.died ty s1), by intro a ha; cases ha⟩
  · refine ⟨h1, ?_⟩
    intro a ha
    cases ha
    exact ⟨_, snp, _, by rw [h1.id]⟩

theorem appendReqFrom_frame (ty) (r : PeerRef) (i : Nat) (s : Srv) (hi : i < s.log.next) :
    Frame ty s (appendReqFrom r i s).2 ∧ Gives (fun q => Sends s q ∧ q.type = .appendReq) (appendReqFrom r i s).1 := by
  unfold appendReqFrom
  rcases ht : termFor s i with _ | t
  · rcases termForLog_none ht with ⟨_, h⟩ | ⟨_, _, h⟩
    · rw [run_bind_err h]; exact ⟨Frame.refl ty s, by intro a ha; cases ha⟩
    · rw [run_bind_err h]; exact ⟨Frame.died ty s, by intro a ha; cases ha⟩
  rw [run_bind_ok (termForLog_some ht)]
  by_cases hc : s.log.next ≤ i + 1 ∨ s.log.start ≤ i + 1
  case neg => rw [run_bind_err (entriesFrom_err hc)]; exact ⟨Frame.refl ty s, by intro a ha; cases ha⟩
  rw [run_bind_ok (entriesFrom_ok hc), bind_get]
  rcases hp : s.peer r with _ | p
  · rw [run_bind_err (getPeer_none hp)]; exact ⟨Frame.refl ty s, by intro a ha; cases ha⟩
  rw [run_bind_ok (getPeer_some hp)]
  refine ⟨Frame.refl ty s, ?_⟩
  intro a ha
  cases ha
  exact ⟨.append p.id i t hi ht hc, rfl⟩

theorem createAppendReq_frame (ty) (r : PeerRef) (s : Srv) :
    Frame ty s (createAppendReq r s).2 ∧
    Gives (fun q => Sends s q ∧ isRepl q.type) (createAppendReq r s).1 := by
  unfold createAppendReq
  rw [bind_get, bind_modPeer]
  have h1 : Frame ty s (s.setPeer r fun p => if p.nextIdx = 0 then { p with nextIdx := s.log.next } else p) :=
    Frame.setPeer ty s r _ (by intro p; split <;> rfl)
  generalize (s.setPeer r fun p => if p.nextIdx = 0 then { p with nextIdx := s.log.next } else p) = s1 at h1
  rcases hp : s1.peer r with _ | p
  · rw [run_bind_err (getPeer_none hp)]; exact ⟨h1, by intro a ha; cases ha⟩
  rw [run_bind_ok (getPeer_some hp)]
  have back : ∀ {q}, Sends s1 q → Sends s q := by
    intro q hq
    obtain ⟨_, _, _, rfl, _⟩ := h1
    exact hq.congr (by rfl) (by rfl) (by rfl) (by rfl) (by rfl) (by rfl)
  by_cases c1 : s.log.next ≤ p.nextIdx - 1
  · rw [if_pos c1]; exact ⟨h1.trans (Frame.died ty s1), by intro a ha; cases ha⟩
  rw [if_neg c1]
  by_cases c2 : 0 < p.nextIdx - 1 ∧ p.nextIdx - 1 < s.log.start - 1
  · rw [if_pos c2]
    have h2 := createSync_frame ty r (p.nextIdx - 1) s.term s.quickCommit s1
    refine ⟨h1.trans h2.1, ?_⟩
    intro a ha
    obtain ⟨dst, snp, y, rfl⟩ := h2.2 a ha
    rw [h1.id]
    exact ⟨.snapshot dst (p.nextIdx - 1) snp y c2.1 c2.2, .inr rfl⟩
  · rw [if_neg c2]
    have h2 := appendReqFrom_frame ty r (p.nextIdx - 1) s1 (by rw [h1.log]; omega)
    refine ⟨h1.trans h2.1, ?_⟩
    intro a ha
    exact ⟨back (h2.2 a ha).1, .inl (h2.2 a ha).2⟩

theorem requestAppend_frame (r : PeerRef) : Pres (Frame isRepl) (requestAppend r) := by
  intro s
  unfold requestAppend
  rcases hp : s.peer r with _ | p
  · rw [run_bind_err (getPeer_none hp)]; exact Frame.refl _ s
  rw [run_bind_ok (getPeer_some hp)]
  split
  · exact Frame.refl _ s
  rw [bind_modPeer]
  have h1 : Frame isRepl s (s.setPeer r fun p => { p with busy := true }) := Frame.setPeer _ s r _ (by intro p; rfl)
  generalize (s.setPeer r fun p => { p with busy := true }) = s1 at h1
  have h2 := createAppendReq_frame isRepl r s1
  rw [run_bind]
  rcases hc : createAppendReq r s1 with ⟨e | q, s2⟩
  · rw [hc] at h2; exact h1.trans h2.1
  rw [hc] at h2
  have h3 := h2.2 q rfl
  refine (h1.trans h2.1).trans ?_
  show Frame isRepl s2 { s2 with trace := s2.trace ++ [.send q] }
  refine Frame.send ?_ h3.2
  obtain ⟨_, _, _, e2, _⟩ := h2.1
  simp only [] at e2
  subst e2
  exact h3.1.congr (by rfl) (by rfl) (by rfl) (by rfl) (by rfl) (by rfl)

theorem commitNotify_frame (id : Int) : Pres (Frame isRepl) (commitNotify id) := by
  unfold commitNotify
  pres (Frame.po isRepl) using requestAppend_frame, modPeer_frame
  rfl

theorem requestAppendTo_frame (id : Int) : Pres (Frame isRepl) (requestAppendTo id) := by
  unfold requestAppendTo
  pres (Frame.po isRepl) using requestAppend_frame

theorem leaderPeer_frame (id : Int) : Pres (Frame isRepl) (leaderPeer id) := by
  unfold leaderPeer enableHb
  pres (Frame.po isRepl) using modPeer_frame
  all_goals rfl

theorem askVote_frame (ty : MsgType) (h : isPoll ty) (id : Int) : Pres (Frame (· = ty)) (askVote ty id) := by
  intro s
  unfold askVote
  rw [bind_get]
  rcases ht : termFor s (s.log.next - 1) with _ | t
  · rcases termForLog_none ht with ⟨_, h⟩ | ⟨_, _, h⟩
    · rw [run_bind_err h]; exact Frame.refl _ s
    · rw [run_bind_err h]; exact Frame.died _ s
  rw [run_bind_ok (termForLog_some ht), run_emit]
  exact Frame.send (.vote ty id t h ht) rfl

end Cs.Raft
