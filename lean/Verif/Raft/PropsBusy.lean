import Verif.Raft.PropsMake
import Verif.Raft.PropsRace

/-!
# C53: requests outstanding

How many append and snapshot requests a server has sent to another one that have not been answered.
-/

namespace Cs.Raft
open Cs

/-! ## Specification -/

/-- An append or snapshot request to server `j`. -/
def Eff.asks (j : Int) : Eff → Bool
  | .send r => (r.type == .appendReq || r.type == .snpReq) && r.dst == j
  | _ => false

/-- The server has become leader. -/
def Eff.leads : Eff → Bool
  | .lead _ => true
  | _ => false

/-- A configuration without server `j` is put into force. -/
def Eff.drops (j : Int) : Eff → Bool
  | .saveConfig c => !c.has j
  | .applySnp q => !q.config.has j
  | _ => false

/-- The answer to an append or snapshot request to server `j`, or the report that it has failed. -/
def Input.answers (j : Int) : Input → Bool
  | .peerResp ty r => (ty == .appendReq || ty == .snpReq) && r.src == j
  | .peerErr r => (r.type == .appendReq || r.type == .snpReq) && r.dst == j
  | .extResp (.member i) ty _ => (ty == .appendReq || ty == .snpReq) && i == j
  | .extErr (.member i) r => (r.type == .appendReq || r.type == .snpReq) && i == j
  | _ => false

/-- Inputs by which server `j` can join or leave without a configuration being put into force: an invitation to join another
cluster, the request to add `j`, and the failure of the request to `j` to leave. -/
def Input.moves (j : Int) : Input → Bool
  | .req r => r.type == .joinReq || (r.type == .addReq && match r.entries with
    | [⟨_, .srv c⟩] => c.id == j
    | _ => false)
  | .extErr _ r => r.type == .leaveReq && r.dst == j
  | _ => false

/-- Server `j` is a peer marked as busy. -/
def Srv.busyAt (s : Srv) (j : Int) : Nat :=
  match s.findPeer j with
  | some p => p.busy.toNat
  | none => 0

/-- Server `j` is not the one that is to join. -/
def Srv.notJoining (s : Srv) (j : Int) : Prop := ∀ p, s.srvToJoin = some p → p.id ≠ j

/-! ## The relation -/

/-- Requests sent to `j` and leaderships begun between `s` and `s'`. -/
def Bz (j : Int) (s s' : Srv) : Prop :=
  s.notJoining j → s'.notJoining j ∧ ∃ es, s'.trace = s.trace ++ es ∧
    (es.any (Eff.drops j) = true ∨ es.countP (Eff.asks j) + s.busyAt j ≤ s'.busyAt j + es.countP Eff.leads)

theorem bzPo (j : Int) : PO (Bz j) where
  refl s h := ⟨h, [], (List.append_nil _).symm, .inr (by simp)⟩
  trans {a b c} h1 h2 h := by
    obtain ⟨n1, f1, e1, h1⟩ := h1 h
    obtain ⟨n2, f2, e2, h2⟩ := h2 n1
    refine ⟨n2, f1 ++ f2, by rw [e2, e1, List.append_assoc], ?_⟩
    rw [List.any_append, List.countP_append, List.countP_append]
    rcases h1 with h1 | h1
    · rw [h1]; exact .inl rfl
    rcases h2 with h2 | h2
    · rw [h2, Bool.or_true]; exact .inl rfl
    exact .inr (by omega)

/-- Nothing is sent to `j`, and its mark stays. -/
def Hush (j : Int) (s s' : Srv) : Prop :=
  (s.notJoining j → s'.notJoining j) ∧ s'.busyAt j = s.busyAt j ∧ ∃ es, s'.trace = s.trace ++ es ∧ es.countP (Eff.asks j) = 0

theorem hushPo (j : Int) : PO (Hush j) where
  refl s := ⟨fun h => h, rfl, [], (List.append_nil _).symm, rfl⟩
  trans {a b c} h1 h2 := by
    obtain ⟨n1, b1, f1, e1, h1⟩ := h1
    obtain ⟨n2, b2, f2, e2, h2⟩ := h2
    refine ⟨fun h => n2 (n1 h), b2.trans b1, f1 ++ f2, by rw [e2, e1, List.append_assoc], ?_⟩
    rw [List.countP_append, h1, h2]

variable {j : Int}

theorem Hush.bz {s s' : Srv} (h : Hush j s s') : Bz j s s' := by
  intro hn
  obtain ⟨n1, b1, f1, e1, h1⟩ := h
  exact ⟨n1 hn, f1, e1, .inr (by omega)⟩

/-! ## Changes of peers -/

theorem busyAt_map (s : Srv) (f : Peer → Peer) (hf : ∀ p, (f p).cfg = p.cfg ∧ (f p).busy = p.busy) :
    ({ s with peers := s.peers.map f } : Srv).busyAt j = s.busyAt j := by
  have h : ({ s with peers := s.peers.map f } : Srv).findPeer j = (s.findPeer j).map f := by
    show (s.peers.map f).find? (·.id == j) = _
    rw [List.find?_map]
    unfold Srv.findPeer
    congr 2
    funext p
    show ((f p).cfg.id == j) = (p.cfg.id == j)
    rw [(hf p).1]
  unfold Srv.busyAt
  rw [h]
  cases s.findPeer j with
  | none => rfl
  | some p => show (f p).busy.toNat = _; rw [(hf p).2]

theorem notJoining_map {s : Srv} {f : Peer → Peer} (hf : ∀ p, (f p).cfg = p.cfg) (h : s.notJoining j) :
    ({ s with srvToJoin := s.srvToJoin.map f } : Srv).notJoining j := by
  intro p hp
  rcases hs : s.srvToJoin with _ | q
  · rw [hs] at hp; cases hp
  · rw [hs] at hp
    cases hp
    show (f q).cfg.id ≠ j
    rw [hf q]
    exact h q hs

theorem Hush.of {s s' : Srv} (h1 : s'.trace = s.trace) (h2 : s'.busyAt j = s.busyAt j)
    (h3 : s.notJoining j → s'.notJoining j) : Hush j s s' := ⟨h3, h2, [], by rw [h1, List.append_nil], rfl⟩

theorem hush_setPeer (s : Srv) (r : PeerRef) (f : Peer → Peer) (hf : ∀ p, (f p).cfg = p.cfg ∧ (f p).busy = p.busy) :
    Hush j s (s.setPeer r f) := by
  cases r with
  | member id =>
    refine .of rfl (busyAt_map s (fun p => if p.id == id then f p else p) fun p => ?_) fun h => h
    show (if (p.id == id) = true then f p else p).cfg = _ ∧ (if (p.id == id) = true then f p else p).busy = _
    split
    · exact hf p
    · exact ⟨rfl, rfl⟩
  | joining => exact .of rfl rfl fun h => notJoining_map (fun p => (hf p).1) h

theorem hush_modPeer (r : PeerRef) (f : Peer → Peer) (hf : ∀ p, (f p).cfg = p.cfg ∧ (f p).busy = p.busy) :
    Pres (Hush j) (modPeer r f) := fun s => hush_setPeer s r f hf

theorem hush_getPeer (r : PeerRef) : Pres (Hush j) (getPeer r) := by
  unfold getPeer
  pres (hushPo j) using pres_ite
theorem hush_emit (e : Eff) (h : e.asks j = false) : Pres (Hush j) (emit e) := fun s =>
  ⟨fun h => h, rfl, [e], rfl, by rw [List.countP_cons, h]; rfl⟩
theorem hush_die {α : Type} (c : Int) : Pres (Hush j) (die c : R α) := by
  unfold die
  pres (hushPo j) using hush_emit
  rfl
theorem hush_termAt (i : Nat) : Pres (Hush j) (termAt i) := by
  unfold termAt
  pres (hushPo j) using hush_die
theorem hush_termForLog (i : Nat) : Pres (Hush j) (termForLog i) := by
  unfold termForLog
  pres (hushPo j) using hush_die, hush_termAt
theorem hush_entriesFrom (i : Nat) : Pres (Hush j) (entriesFrom i) := by
  unfold entriesFrom
  pres (hushPo j) using hush_die
theorem hush_chooseSnap (r : PeerRef) (i : Nat) : Pres (Hush j) (chooseSnap r i) := by
  unfold chooseSnap
  pres (hushPo j) using hush_die, hush_getPeer, hush_modPeer
  exact ⟨rfl, rfl⟩
theorem hush_createSync (r : PeerRef) (i t c : Nat) : Pres (Hush j) (createSyncSnapshotReq r i t c) := by
  unfold createSyncSnapshotReq
  pres (hushPo j) using hush_die, hush_getPeer, hush_chooseSnap
theorem hush_appendReqFrom (r : PeerRef) (i : Nat) : Pres (Hush j) (appendReqFrom r i) := by
  unfold appendReqFrom
  pres (hushPo j) using hush_termForLog, hush_getPeer, hush_entriesFrom
theorem hush_createAppendReq (r : PeerRef) : Pres (Hush j) (createAppendReq r) := by
  unfold createAppendReq
  pres (hushPo j) using hush_die, hush_getPeer, hush_modPeer, hush_createSync, hush_appendReqFrom
  all_goals exact ⟨rfl, rfl⟩

/-! ## Where requests go -/

/-- The request that is made goes to the peer. -/
def To (r : PeerRef) (x : R Req) : Prop := ∀ s q s', x s = (.ok q, s') → ∃ p, s'.peer r = some p ∧ q.dst = p.id

theorem to_bind {α : Type} {r : PeerRef} {x : R α} {f : α → R Req} (h : ∀ a, To r (f a)) : To r (x >>= f) := by
  intro s q s' hr
  rw [run_bind] at hr
  rcases hx : x s with ⟨e | a, s1⟩
  · rw [hx] at hr; cases hr
  · rw [hx] at hr; exact h a s1 q s' hr
theorem to_ite {r : PeerRef} {c : Prop} [Decidable c] {x y : R Req} (hx : To r x) (hy : To r y) :
    To r (if c then x else y) := by split <;> assumption
theorem to_die {r : PeerRef} (c : Int) : To r (die c) := fun s q s' h => (by cases h)
theorem to_throw {r : PeerRef} (e : Fault) : To r (throw e) := fun s q s' h => (by cases h)
/-- The last steps: read the peer, make the request. -/
theorem to_peer {r : PeerRef} {f : Peer → R Req}
    (h : ∀ p s q s', f p s = (.ok q, s') → s' = s ∧ q.dst = p.id) : To r (getPeer r >>= f) := by
  intro s q s' hr
  rcases hp : s.peer r with _ | p
  · rw [run_bind_err (getPeer_none hp)] at hr; cases hr
  · rw [run_bind_ok (getPeer_some hp)] at hr
    obtain ⟨rfl, h2⟩ := h p s q s' hr
    exact ⟨p, hp, h2⟩

theorem to_createSync (r : PeerRef) (i t c : Nat) : To r (createSyncSnapshotReq r i t c) := by
  unfold createSyncSnapshotReq
  refine to_bind fun _ => to_bind fun _ => to_peer fun p s q s' h => ?_
  generalize p.snpCtx = o at h
  rcases o with _ | ⟨snp, off⟩
  · cases h
  simp only [] at h
  rw [run_ite] at h
  split at h
  · cases h
  · rw [run_ite] at h
    split at h
    · cases h
    · cases h; exact ⟨rfl, rfl⟩
theorem to_appendReqFrom (r : PeerRef) (i : Nat) : To r (appendReqFrom r i) := by
  unfold appendReqFrom
  refine to_bind fun _ => to_bind fun _ => to_bind fun _ => to_peer fun p s q s' h => ?_
  cases h; exact ⟨rfl, rfl⟩
theorem to_createAppendReq (r : PeerRef) : To r (createAppendReq r) := by
  unfold createAppendReq
  exact to_bind fun _ => to_bind fun _ => to_bind fun _ => to_ite (to_die _) (to_ite (to_createSync _ _ _ _) (to_appendReqFrom _ _))

theorem peer_id {s : Srv} {i : Int} {p : Peer} (h : s.peer (.member i) = some p) : p.id = i := by
  have := List.find?_some (show s.peers.find? (·.id == i) = some p from h)
  simpa using this

/-! ## Append requests -/

theorem busyAt_mark {s : Srv} {p : Peer} {i : Int} (h : s.peer (.member i) = some p) :
    (s.setPeer (.member i) fun p => { p with busy := true }).busyAt j = if i = j then 1 else s.busyAt j := by
  have hf : (s.setPeer (.member i) fun p => { p with busy := true }).findPeer j =
      (s.findPeer j).map fun p => if p.id == i then { p with busy := true } else p := by
    show (s.peers.map fun p => if p.id == i then { p with busy := true } else p).find? (·.id == j) = _
    rw [List.find?_map]
    unfold Srv.findPeer
    congr 2
    funext p
    show ((if p.id == i then { p with busy := true } else p).id == j) = (p.id == j)
    split <;> rfl
  by_cases hij : i = j
  · subst hij
    rw [if_pos rfl]
    unfold Srv.busyAt
    rw [hf, show s.findPeer i = some p from h]
    show (if p.id == i then { p with busy := true } else p).busy.toNat = 1
    rw [peer_id h, if_pos (beq_self_eq_true i)]
    rfl
  · rw [if_neg hij]
    unfold Srv.busyAt
    rw [hf]
    rcases hq : s.findPeer j with _ | q
    · rfl
    · show (if q.id == i then { q with busy := true } else q).busy.toNat = q.busy.toNat
      have hqj : q.id = j := peer_id (show s.peer (.member j) = some q from hq)
      rw [if_neg (by rw [hqj]; intro h; exact hij (by simpa using (beq_iff_eq.mp h).symm))]

theorem bz_requestAppend (i : Int) : Pres (Bz j) (requestAppend (.member i)) := by
  intro s
  unfold requestAppend
  rcases hp : s.peer (.member i) with _ | p
  · rw [run_bind_err (getPeer_none hp)]; exact (bzPo j).refl s
  rw [run_bind_ok (getPeer_some hp)]
  rcases hb : p.busy with _ | _
  case true => exact (bzPo j).refl s
  show Bz j s ((do
    modPeer (.member i) fun p => { p with busy := true }
    let req ← createAppendReq (.member i)
    emit (.send req)
    pure true : R Bool) s).2
  rw [bind_modPeer]
  intro hn
  have hm := busyAt_mark (j := j) hp
  have hn1 : (s.setPeer (.member i) fun p => { p with busy := true }).notJoining j := hn
  have ht1 : (s.setPeer (.member i) fun p => { p with busy := true }).trace = s.trace := rfl
  generalize s.setPeer (.member i) (fun p => { p with busy := true }) = s1 at hm hn1 ht1 ⊢
  have h0 : i = j → s.busyAt j = 0 := by
    rintro rfl
    unfold Srv.busyAt
    rw [show s.findPeer i = some p from hp]
    show p.busy.toNat = 0
    rw [hb]; rfl
  have hle : s.busyAt j + (if i = j then 1 else 0) ≤ s1.busyAt j := by
    rw [hm]
    by_cases hij : i = j
    · rw [if_pos hij, if_pos hij, h0 hij]
      exact Nat.le_refl _
    · rw [if_neg hij, if_neg hij]
      exact Nat.le_refl _
  have hc := hush_createAppendReq (j := j) (.member i) s1
  have hd := to_createAppendReq (.member i) s1
  rw [run_bind]
  rcases hr : createAppendReq (.member i) s1 with ⟨e | q, s2⟩
  · rw [hr] at hc
    obtain ⟨n, b, es, h1, h2⟩ := hc
    refine ⟨n hn1, es, by rw [← ht1]; exact h1, .inr ?_⟩
    simp only [] at b ⊢
    omega
  · rw [hr] at hc
    obtain ⟨p2, hp2, hq⟩ := hd q s2 hr
    obtain ⟨n, b, es, h1, h2⟩ := hc
    refine ⟨n hn1, es ++ [.send q], ?_, .inr ?_⟩
    · rw [← List.append_assoc, ← ht1, ← h1]; rfl
    · have hsend : (List.countP (Eff.asks j) [.send q]) ≤ if i = j then 1 else 0 := by
        by_cases hij : i = j
        · rw [if_pos hij]; exact List.countP_le_length
        · rw [if_neg hij]
          have : (Eff.send q).asks j = false := by
            show ((q.type == .appendReq || q.type == .snpReq) && q.dst == j) = false
            rw [hq, peer_id hp2, show (i == j) = false from by simpa using hij, Bool.and_false]
          rw [List.countP_cons, this]
          exact Nat.le_refl _
      have hs2 : ({ s2 with trace := s2.trace ++ [.send q] } : Srv).busyAt j = s2.busyAt j := rfl
      show _ ≤ ({ s2 with trace := s2.trace ++ [.send q] } : Srv).busyAt j + _
      simp only [] at b
      rw [hs2, List.countP_append, h2, b]
      omega

/-! ## All steps -/

theorem bz_same {s s' : Srv} (h1 : s'.trace = s.trace) (h2 : s'.peers = s.peers)
    (h3 : s'.srvToJoin = s.srvToJoin ∨ s'.srvToJoin = none) : Hush j s s' := by
  refine .of h1 ?_ fun h p hp => ?_
  · unfold Srv.busyAt Srv.findPeer; rw [h2]
  · rcases h3 with h3 | h3
    · rw [h3] at hp; exact h p hp
    · rw [h3] at hp; cases hp

instance bzWalk0 (j : Int) : Walk0 (Bz j) where
  po := bzPo j
  calm h1 _ h2 h3 := (bz_same h1 h2 h3).bz
  joinee {s f} hf := Hush.bz (s := s) (s' := { s with srvToJoin := s.srvToJoin.map f }) (.of rfl rfl fun h => notJoining_map hf h)
  peers {s f} hf := Hush.bz (s' := { s with peers := s.peers.map f }) (.of rfl (busyAt_map s f hf) fun h => h)
  say {s e} h := (hush_emit e (by
    cases e <;> first | rfl | skip
    next r =>
    show ((r.type == .appendReq || r.type == .snpReq) && r.dst == j) = false
    have h : (r.type != .appendReq && r.type != .snpReq) = true := h
    rcases ht : r.type <;> rw [ht] at h <;> first | rfl | cases h) s).bz
  ask i := bz_requestAppend i

theorem bz_emit (e : Eff) (h : e.asks j = false) : Pres (Bz j) (emit e) := fun s => (hush_emit e h s).bz

theorem bz_sync (i t c : Nat) : Pres (Bz j) (createSyncSnapshotReq .joining i t c >>= fun q => emit (.send q)) := by
  intro s hn
  have hc := hush_createSync (j := j) .joining i t c s
  have hd := to_createSync .joining i t c s
  rw [run_bind]
  rcases hr : createSyncSnapshotReq .joining i t c s with ⟨e | q, s1⟩
  · rw [hr] at hc
    exact hc.bz hn
  · rw [hr] at hc
    obtain ⟨p, hp, hq⟩ := hd q s1 hr
    have hj : p.id ≠ j := hc.1 hn p hp
    have hs : (Eff.send q).asks j = false := by
      show ((q.type == .appendReq || q.type == .snpReq) && q.dst == j) = false
      rw [hq, show (p.id == j) = false from by simpa using hj, Bool.and_false]
    exact ((hushPo j).trans hc (hush_emit _ hs s1)).bz hn

theorem bz_snap (i : Nat) : Pres (Bz j) (snapshotAndCompact i) := by
  unfold snapshotAndCompact startSnapshot
  pres (bzPo j) using wk_confForSnap, wk_termAt, bz_emit, wk_mod
  all_goals first | exact (bz_same rfl rfl (.inl rfl)).bz | wk

theorem bz_done (q : Snap) (ok : Bool) : Pres (Bz j) (onSnapshotCompleted q ok) := by
  unfold onSnapshotCompleted
  pres (bzPo j) using wk_logCompact, wk_mod
  all_goals first | exact (bz_same rfl rfl (.inl rfl)).bz | wk

/-! ## The new leader -/

/-- Nothing is sent to `j`. -/
def Mute (j : Int) (s s' : Srv) : Prop :=
  (s.notJoining j → s'.notJoining j) ∧ ∃ es, s'.trace = s.trace ++ es ∧ es.countP (Eff.asks j) = 0

theorem mutePo (j : Int) : PO (Mute j) where
  refl s := ⟨fun h => h, [], (List.append_nil _).symm, rfl⟩
  trans {a b c} h1 h2 := by
    obtain ⟨n1, f1, e1, h1⟩ := h1
    obtain ⟨n2, f2, e2, h2⟩ := h2
    refine ⟨fun h => n2 (n1 h), f1 ++ f2, by rw [e2, e1, List.append_assoc], ?_⟩
    rw [List.countP_append, h1, h2]

theorem mute_leaderPeer (i : Int) : Pres (Mute j) (leaderPeer i) := by
  unfold leaderPeer enableHb
  have h : ∀ f : Peer → Peer, Pres (Mute j) (modPeer (.member i) f) :=
    fun f s => ⟨fun h => h, [], (List.append_nil _).symm, rfl⟩
  pres (mutePo j) using h

theorem busyAt_le (s : Srv) (j : Int) : s.busyAt j ≤ 1 := by
  unfold Srv.busyAt
  split
  · exact Bool.toNat_le _
  · exact Nat.zero_le _

/-- `become_leader` up to the loop over the peers. -/
def Srv.crowned (s : Srv) : Srv :=
  { s with armed := false, role := .leader, trace := s.trace ++ [.lead s.term], leader := s.id, srvToJoin := none }

theorem run_crowned (s : Srv) : becomeLeader s = (do
    let ids ← peerIds
    forEach leaderPeer ids
    initialConf
    emit (.event .becomeLeader)
    requestAppendAll : R Unit) s.crowned := rfl

theorem bz_lead : Pres (Bz j) becomeLeader := by
  intro s
  rw [run_crowned, run_bind_ok (show peerIds s.crowned = (.ok _, s.crowned) from rfl)]
  intro hn
  have hd := pres_forEach (mutePo j) mute_leaderPeer (s.crowned.peers.map Peer.id) s.crowned
  have hn1 : s.crowned.notJoining j := fun p hp => (by cases hp)
  have hr : Pres (Bz j) (do
      initialConf
      emit (.event .becomeLeader)
      requestAppendAll : R Unit) := by
    pres (bzPo j) using wk_initialConf, wk_emit, wk_requestAppendAll
    rfl
  have hb := busyAt_le s j
  have ht : s.crowned.trace = s.trace ++ [.lead s.term] := rfl
  generalize s.crowned = s1 at hd hn1 ht ⊢
  rw [run_bind]
  rcases hf : forEach leaderPeer (s1.peers.map Peer.id) s1 with ⟨e | u, s2⟩
  · rw [hf] at hd
    obtain ⟨n, es, h1, h2⟩ := hd
    refine ⟨n hn1, .lead s.term :: es, ?_, .inr ?_⟩
    · rw [h1, ht, List.append_assoc]; rfl
    · rw [List.countP_cons, List.countP_cons, h2]
      show 0 + 0 + s.busyAt j ≤ s2.busyAt j + (List.countP Eff.leads es + 1)
      omega
  · rw [hf] at hd
    obtain ⟨n, es, h1, h2⟩ := hd
    have h3 := hr s2 (n hn1)
    obtain ⟨n3, fs, h3, h4⟩ := h3
    refine ⟨n3, .lead s.term :: (es ++ fs), ?_, ?_⟩
    · show _ = s.trace ++ ([.lead s.term] ++ (es ++ fs))
      rw [← List.append_assoc, ← List.append_assoc, ← ht, ← h1]
      exact h3
    · rcases h4 with h4 | h4
      · refine .inl ?_
        rw [List.any_cons, List.any_append, h4, Bool.or_true, Bool.or_true]
      · refine .inr ?_
        rw [List.countP_cons, List.countP_cons, List.countP_append, List.countP_append, h2]
        show 0 + List.countP (Eff.asks j) fs + 0 + s.busyAt j ≤
          _ + (List.countP Eff.leads es + List.countP Eff.leads fs + 1)
        simp only [] at h4 ⊢
        omega

/-! ## Configurations -/

/-- Whatever happens behind a configuration without `j`. -/
def Loose (j : Int) (s s' : Srv) : Prop := s.notJoining j → s'.notJoining j ∧ ∃ es, s'.trace = s.trace ++ es

theorem Bz.loose {s s' : Srv} (h : Bz j s s') : Loose j s s' := fun hn =>
  let ⟨h1, es, h2, _⟩ := h hn
  ⟨h1, es, h2⟩

theorem loosePo (j : Int) : PO (Loose j) where
  refl s := ((bzPo j).refl s).loose
  trans {a b c} h1 h2 h := by
    obtain ⟨n1, f1, e1⟩ := h1 h
    obtain ⟨n2, f2, e2⟩ := h2 n1
    exact ⟨n2, f1 ++ f2, by rw [e2, e1, List.append_assoc]⟩

instance looseWalk0 (j : Int) : Walk0 (Loose j) where
  po := loosePo j
  calm h0 h1 h2 h3 := ((bzWalk0 j).calm h0 h1 h2 h3).loose
  joinee hf := ((bzWalk0 j).joinee hf).loose
  peers hf := ((bzWalk0 j).peers hf).loose
  say h := ((bzWalk0 j).say h).loose
  ask i s := ((bzWalk0 j).ask i s).loose

theorem loose_addPeer (s : Srv) (p : Peer) : Loose j s { s with peers := s.peers ++ [p] } :=
  fun h => ⟨h, [], (List.append_nil _).symm⟩
theorem loose_filter (s : Srv) (f : Peer → Bool) : Loose j s { s with peers := s.peers.filter f } :=
  fun h => ⟨h, [], (List.append_nil _).symm⟩
theorem loose_reconfigure (c : Config) : Pres (Loose j) (reconfigure c) :=
  wk_reconfigure0 (fun s p _ _ => loose_addPeer s p) loose_filter c

theorem bz_drop {α : Type} {e : Eff} {k : Unit → R α} (hk : Pres (Loose j) (k ⟨⟩)) (he : e.drops j = true) :
    Pres (Bz j) (emit e >>= k) := by
  intro s hn
  obtain ⟨n, es, h⟩ := hk { s with trace := s.trace ++ [e] } hn
  refine ⟨n, e :: es, ?_, .inl (by rw [List.any_cons, he]; rfl)⟩
  show _ = s.trace ++ ([e] ++ es)
  rw [← List.append_assoc]
  exact h

theorem bz_add (s : Srv) (p : Peer) (hb : p.busy = false) (_ : s.findPeer p.id = none) :
    Bz j s { s with peers := s.peers ++ [p] } := by
  refine Hush.bz (.of rfl ?_ fun h => h)
  unfold Srv.busyAt
  have h : ({ s with peers := s.peers ++ [p] } : Srv).findPeer j = (s.findPeer j).or (if p.id == j then some p else none) := by
    show (s.peers ++ [p]).find? (·.id == j) = _
    rw [List.find?_append]
    congr 1
    rw [List.find?_cons]
    cases p.id == j <;> rfl
  rw [h]
  rcases hq : s.findPeer j with _ | q
  · show (match (if p.id == j then some p else none) with | some p => p.busy.toNat | none => 0) = 0
    split
    · next p' hp =>
      split at hp
      · cases hp; rw [hb]; rfl
      · cases hp
    · rfl
  · rfl

theorem bz_filter (s : Srv) (i : Int) (h : i ≠ j) : Bz j s { s with peers := s.peers.filter fun p => p.id != i } := by
  refine Hush.bz (.of rfl ?_ fun h => h)
  have hf : ({ s with peers := s.peers.filter fun p => p.id != i } : Srv).findPeer j = s.findPeer j := by
    show (s.peers.filter fun p => p.id != i).find? (·.id == j) = s.peers.find? (·.id == j)
    rw [List.find?_filter]
    congr 1
    funext p
    by_cases hp : p.id = j
    · rw [hp]
      simpa using fun e => h e.symm
    · rw [show (p.id == j) = false from by simpa using hp]
      simp
  unfold Srv.busyAt
  rw [hf]

theorem bz_removePeer (c : Config) (i : Int) (h : i ≠ j) : Pres (Bz j) (removePeer c i) := by
  unfold removePeer
  have h1 : Pres (Bz j) (modify fun s : Srv => { s with peers := s.peers.filter fun p => p.id != i } : R PUnit) :=
    fun s => bz_filter s i h
  pres (bzPo j) using wk_emit, wk_die, h1
  rfl

theorem bz_removeAll (c : Config) : ∀ is : List Int, (∀ i ∈ is, i ≠ j) → Pres (Bz j) (forEach (removePeer c) is)
  | [], _ => pres_pure (bzPo j) _
  | i :: is, h => by
    unfold forEach
    exact pres_bind (bzPo j) (bz_removePeer c i (h i (List.mem_cons_self ..))) fun _ =>
      bz_removeAll c is fun k hk => h k (List.mem_cons_of_mem _ hk)

theorem bz_reconfigure (c : Config) (hc : c.has j = true) : Pres (Bz j) (reconfigure c) := by
  unfold reconfigure
  refine pres_getBind fun s => ?_
  refine pres_bind (bzPo j) (pres_forEach (bzPo j) (wk_addPeer0 bz_add) _) (fun _ => ?_) s
  refine pres_bind (bzPo j) (bz_removeAll c _ fun i hi => ?_) fun _ => wk_mod fun s => (bz_same rfl rfl (.inl rfl)).bz
  rintro rfl
  rcases List.mem_append.mp hi with h | h
  · have := (List.mem_filter.mp h).2
    rw [hc] at this
    cases this
  · split at h
    · cases h
    · next hs =>
      rw [List.mem_singleton] at h
      exact hs (h ▸ hc)

theorem bz_commitConf (c : Config) : Pres (Bz j) (commitConf c) := by
  by_cases hc : c.has j = true
  · unfold commitConf
    have h := bz_reconfigure c hc
    pres (bzPo j) using wk_emit, wk_mod, h
    all_goals wk
  · unfold commitConf
    refine bz_drop ?_ (by show (!c.has j) = true; rw [Bool.not_eq_true] at hc; rw [hc]; rfl)
    pres (loosePo j) using wk_mod, loose_reconfigure
    all_goals wk

theorem bz_installSnapshot (q : Snap) : Pres (Bz j) (installSnapshot q) := by
  by_cases hc : q.config.has j = true
  · unfold installSnapshot
    have h := bz_reconfigure q.config hc
    pres (bzPo j) using wk_die, wk_logCompact, wk_stop, wk_emit, wk_mod, h, wk_saveState, wk_restart
    all_goals wk
  · have hd : (Eff.applySnp q).drops j = true := by
      show (!q.config.has j) = true; rw [Bool.not_eq_true] at hc; rw [hc]; rfl
    unfold installSnapshot
    pres (bzPo j) using wk_die, wk_logCompact, wk_stop, bz_drop
    pres (loosePo j) using wk_die, wk_emit, wk_mod, loose_reconfigure, wk_saveState, wk_restart
    all_goals wk

theorem bzWalk {x : Input} (hx : x.moves j = false) : Walk (Bz j) x where
  sync := bz_sync
  snap i _ := bz_snap i
  lead := bz_lead
  done q ok _ := bz_done q ok
  invite {s} t c r h1 h2 h3 := by
    subst h1
    have hx : (r.type == .joinReq || (r.type == .addReq && match r.entries with
      | [⟨_, .srv c⟩] => c.id == j
      | _ => false)) = false := hx
    rw [h2, h3] at hx
    have hj : (c.id == j) = false := hx
    refine Hush.bz (.of rfl rfl fun h p hp => ?_)
    cases hp
    show c.id ≠ j
    simpa using hj
  conf := bz_commitConf
  inst := bz_installSnapshot
  join r h1 h2 := by
    subst h1
    have hx : (r.type == .joinReq || _) = false := hx
    rw [h2] at hx
    cases hx
  force {s} p r h1 h2 _ := by
    subst h1
    have hx : (r.type == .leaveReq && r.dst == j) = false := hx
    rw [h2] at hx
    have hx : (r.dst == j) = false := hx
    exact bz_filter s r.dst (by simpa using hx)

/-! ## Whole inputs -/

theorem busyAt_other (s : Srv) (r : PeerRef) (f : Peer → Peer) (hf : ∀ p, (f p).cfg = p.cfg) (h : r ≠ .member j) :
    Hush j s (s.setPeer r f) := by
  cases r with
  | joining => exact .of rfl rfl fun h => notJoining_map hf h
  | member i =>
    refine .of rfl ?_ fun h => h
    have hij : i ≠ j := fun e => h (by rw [e])
    have hp : (s.setPeer (.member i) f).findPeer j = s.findPeer j := by
      show (s.peers.map fun p => if p.id == i then f p else p).find? (·.id == j) = s.peers.find? (·.id == j)
      rw [List.find?_map]
      have hid : ((fun p : Peer => p.id == j) ∘ fun p : Peer => if p.id == i then f p else p) = fun p => p.id == j := by
        funext p
        show ((if p.id == i then f p else p).id == j) = (p.id == j)
        split
        · show ((f p).cfg.id == j) = _
          rw [hf p]; rfl
        · rfl
      rw [hid]
      show Option.map _ (s.peers.find? (·.id == j)) = _
      rcases hq : s.peers.find? (·.id == j) with _ | q <;> rw [hq]
      · rfl
      · show some (if q.id == i then f q else q) = some q
        have : q.id = j := peer_id (show s.peer (.member j) = some q from hq)
        rw [if_neg]
        rw [this]
        simpa using fun e => hij e.symm
    unfold Srv.busyAt
    rw [hp]

/-- The bookkeeping of answers: at most one mark is taken away. -/
theorem bz_rpcResult (r : PeerRef) (ty : MsgType) (ok : Bool) (s : Srv) :
    ∃ s', rpcResult r ty ok s = (.ok ⟨⟩, s') ∧ s'.trace = s.trace ∧ (s.notJoining j → s'.notJoining j) ∧
      s.busyAt j ≤ s'.busyAt j + ((ty == .appendReq || ty == .snpReq) && decide (r = .member j)).toNat := by
  let f : Peer → Peer := fun p => if ty = .appendReq ∨ ty = .snpReq then { p with busy := false } else p
  let g : Peer → Peer := if ok then resumeHb s.params else slowDownHb s.params
  have hrun : rpcResult r ty ok s = (.ok ⟨⟩, (s.setPeer r f).setPeer r g) := rfl
  have hg : ∀ p, (g p).cfg = p.cfg ∧ (g p).busy = p.busy := by
    intro p
    show ((if ok then resumeHb s.params else slowDownHb s.params) p).cfg = _ ∧
      ((if ok then resumeHb s.params else slowDownHb s.params) p).busy = _
    cases ok <;> exact ⟨rfl, rfl⟩
  have hf : ∀ p, (f p).cfg = p.cfg := by
    intro p
    show (if ty = .appendReq ∨ ty = .snpReq then { p with busy := false } else p).cfg = _
    split <;> rfl
  have h2 := hush_setPeer (j := j) (s.setPeer r f) r g hg
  refine ⟨_, hrun, ?_, ?_, ?_⟩
  · cases r <;> rfl
  · intro hn
    refine h2.1 ?_
    cases r with
    | member i => exact hn
    | joining => exact notJoining_map hf hn
  · rw [h2.2.1]
    by_cases hr : r = .member j
    · by_cases ht : ty = .appendReq ∨ ty = .snpReq
      · have : ((ty == .appendReq || ty == .snpReq) && decide (r = .member j)) = true := by
          rw [decide_eq_true hr, Bool.and_true]
          rcases ht with ht | ht <;> rw [ht] <;> rfl
        rw [this]
        have := busyAt_le s j
        show _ ≤ _ + 1
        omega
      · have : Hush j s (s.setPeer r f) := by
          refine hush_setPeer s r f fun p => ⟨hf p, ?_⟩
          show (if ty = .appendReq ∨ ty = .snpReq then { p with busy := false } else p).busy = _
          rw [if_neg ht]
        rw [this.2.1]
        omega
    · rw [(busyAt_other s r f hf hr).2.1]
      omega

/-- What is to be shown about an input. -/
def BzIn (j : Int) (x : Input) (s s' : Srv) : Prop :=
  s'.notJoining j ∧ ∃ es, s'.trace = s.trace ++ es ∧ (es.any (Eff.drops j) = true ∨
    es.countP (Eff.asks j) + s.busyAt j ≤ s'.busyAt j + es.countP Eff.leads + (x.answers j).toNat)

theorem bz_run {x : Input} (hx : x.moves j = false) (s : Srv) (hn : s.notJoining j) : BzIn j x s (x.run s).2 := by
  have hw := bzWalk hx
  have h : Pres (Bz j) x.rest := wk_rest (x := x) (Q := Bz j)
  have calm : x.run = x.rest → BzIn j x s (x.run s).2 := fun e => by
    have h1 := h s hn
    rw [← e] at h1
    obtain ⟨n, es, h1, h2⟩ := h1
    exact ⟨n, es, h1, h2.imp id fun h => by omega⟩
  have answer : ∀ (r : PeerRef) (ty : MsgType) (ok : Bool), (x.run = rpcResult r ty ok >>= fun _ => x.rest) →
      x.answers j = ((ty == .appendReq || ty == .snpReq) && decide (r = .member j)) → BzIn j x s (x.run s).2 := by
    intro r ty ok e ha
    obtain ⟨s1, h1, h2, h3, h4⟩ := bz_rpcResult (j := j) r ty ok s
    obtain ⟨n, es, h5, h6⟩ := h s1 (h3 hn)
    have hr : x.run s = x.rest s1 := by rw [e]; exact run_bind_ok h1
    rw [← ha] at h4
    rw [← hr] at h5 h6 n
    exact ⟨n, es, by rw [h5, h2], h6.imp id fun h => by omega⟩
  have hmem : ∀ i : Int, decide (PeerRef.member i = .member j) = (i == j) := by
    intro i
    by_cases h : i = j
    · rw [h, decide_eq_true rfl, beq_self_eq_true]
    · rw [decide_eq_false (fun e => h (by cases e; rfl)), show (i == j) = false from by simpa using h]
  cases x with
  | peerResp ty r =>
    exact answer (.member r.src) ty true rfl (by rw [hmem]; rfl)
  | extResp p ty r =>
    refine answer p ty true rfl ?_
    cases p with
    | member i => rw [hmem]; rfl
    | joining => show false = _; rw [decide_eq_false (by intro h; cases h), Bool.and_false]
  | peerErr r =>
    refine answer (.member r.dst) r.type false ?_ (by rw [hmem]; rfl)
    rfl
  | extErr p r =>
    refine answer p r.type false rfl ?_
    cases p with
    | member i => rw [hmem]; rfl
    | joining => show false = _; rw [decide_eq_false (by intro h; cases h), Bool.and_false]
  | _ => exact calm rfl

/-! ## C53 -/

/-- Append and snapshot requests to server `j`. -/
def asked (j : Int) (fx : List Eff) : Nat := fx.countP (Eff.asks j)
/-- Answers to them, and reports that they have failed. -/
def answered (j : Int) (xs : List Input) : Nat := xs.countP (Input.answers j)
/-- How often the server has become leader. -/
def reigns (fx : List Eff) : Nat := fx.countP Eff.leads

/-- The account of the requests to `j`: those sent are answered, or marked, or forgotten when the server becomes leader. -/
theorem request_account {s s' : Srv} {xs : List Input} {fx : List Eff} (h : Alive s xs fx s') (hj : s.notJoining j)
    (hx : ∀ x ∈ xs, x.moves j = false) (hd : ∀ e ∈ fx, e.drops j = false) :
    s'.notJoining j ∧ asked j fx + s.busyAt j ≤ answered j xs + reigns fx + s'.busyAt j := by
  unfold asked answered reigns
  induction h with
  | nil => exact ⟨hj, by simp⟩
  | @step s1 s2 xs fx x res ha hr hres ih =>
    obtain ⟨n1, h1⟩ := ih (fun y hy => hx y (List.mem_append_left _ hy)) (fun e he => hd e (List.mem_append_left _ he))
    have h2 := bz_run (hx x (by simp)) { s1 with trace := [] } n1
    rw [hr] at h2
    obtain ⟨n2, es, h3, h4⟩ := h2
    have h3 : s2.trace = es := by rw [h3]; rfl
    subst h3
    refine ⟨n2, ?_⟩
    rcases h4 with h4 | h4
    · obtain ⟨e, he, h5⟩ := List.any_eq_true.mp h4
      rw [hd e (List.mem_append_right _ he)] at h5
      cases h5
    · rw [List.countP_append, List.countP_append, List.countP_append]
      have h5 : List.countP (Input.answers j) [x] = (x.answers j).toNat := by
        rw [List.countP_cons]
        cases x.answers j <;> rfl
      have h6 : ({ s1 with trace := [] } : Srv).busyAt j = s1.busyAt j := rfl
      rw [h5]
      simp only [] at h4
      omega

/-- C53, between elections: from any state on, as long as the server does not become leader another time, at most one of the
append and snapshot requests it has sent to `j` is outstanding, whatever happens. Server `j` is a member throughout: it is not
the one that is to join, and no configuration without it is put into force. If one is outstanding and marked at the start,
`marked_not_asked` counts it in.

Missing: elections in between, where it fails, `two_requests_outstanding`; how many requests are outstanding then is bounded by
`requests_bounded`. -/
theorem one_request_partial {s s' : Srv} {xs : List Input} {fx : List Eff} (h : Alive s xs fx s') (hj : s.notJoining j)
    (hx : ∀ x ∈ xs, x.moves j = false) (hd : ∀ e ∈ fx, e.drops j = false) (hl : ∀ t, Eff.lead t ∉ fx) :
    asked j fx ≤ answered j xs + 1 := by
  have h1 := (request_account h hj hx hd).2
  have h2 := busyAt_le s' j
  have h3 : reigns fx = 0 := by
    refine List.countP_eq_zero.mpr fun e he hc => ?_
    cases e <;> first | cases hc | skip
    next t => exact hl t he
  omega

/-- Nothing is sent at all as long as a request is outstanding that is marked. -/
theorem marked_not_asked {s s' : Srv} {xs : List Input} {fx : List Eff} (h : Alive s xs fx s') (hj : s.notJoining j)
    (hx : ∀ x ∈ xs, x.moves j = false) (hd : ∀ e ∈ fx, e.drops j = false) (hl : ∀ t, Eff.lead t ∉ fx)
    (hb : s.busyAt j = 1) : asked j fx ≤ answered j xs := by
  have h1 := (request_account h hj hx hd).2
  have h2 := busyAt_le s' j
  have h3 : reigns fx = 0 := by
    refine List.countP_eq_zero.mpr fun e he hc => ?_
    cases e <;> first | cases hc | skip
    next t => exact hl t he
  omega

/-- With elections in between, the requests outstanding are bounded by the number of them. -/
theorem requests_bounded {s s' : Srv} {xs : List Input} {fx : List Eff} (h : Alive s xs fx s') (hj : s.notJoining j)
    (hx : ∀ x ∈ xs, x.moves j = false) (hd : ∀ e ∈ fx, e.drops j = false) :
    asked j fx ≤ answered j xs + reigns fx + 1 := by
  have h1 := (request_account h hj hx hd).2
  have h2 := busyAt_le s' j
  omega

/-- Run inputs, and collect the effects. -/
def Srv.live (s : Srv) (fx : List Eff) : List Input → Option (List Eff × Srv)
  | [] => some (fx, s)
  | x :: xs => match x.run { s with trace := [] } with
    | (.ok ⟨⟩, s') => s'.live (fx ++ s'.trace) xs
    | (.error .thrown, s') => s'.live (fx ++ s'.trace) xs
    | _ => none

theorem Srv.live_alive : ∀ (ys : List Input) {s s1 s' : Srv} {xs : List Input} {fx fx' : List Eff},
    Alive s xs fx s1 → s1.live fx ys = some (fx', s') → Alive s (xs ++ ys) fx' s'
  | [], s, s1, s', xs, fx, fx', h, hl => by cases hl; rw [List.append_nil]; exact h
  | y :: ys, s, s1, s', xs, fx, fx', h, hl => by
    have : xs ++ y :: ys = (xs ++ [y]) ++ ys := by simp
    rw [this]
    unfold Srv.live at hl
    rcases hr : y.run { s1 with trace := [] } with ⟨e | u, t⟩
    · rw [hr] at hl
      cases e with
      | thrown => exact Srv.live_alive ys (h.step hr (.inr rfl)) hl
      | exit c => cases hl
      | ub => cases hl
    · rw [hr] at hl
      exact Srv.live_alive ys (h.step hr (.inl rfl)) hl

/-- Such a history can be checked by evaluation. -/
theorem live_check {s : Srv} {xs : List Input} {P : List Eff → Srv → Bool}
    (h : (match s.live [] xs with | some (fx, s') => P fx s' | none => false) = true) :
    ∃ fx s', Alive s xs fx s' ∧ P fx s' = true := by
  rcases hs : s.live [] xs with _ | ⟨fx, s'⟩
  · rw [hs] at h; cases h
  · rw [hs] at h
    exact ⟨fx, s', by simpa using Srv.live_alive xs (.nil s) hs, h⟩

/-- The server is elected in term 1, hears of term 2, and is elected in term 3. -/
def electedTwice : List Input := [.electionTimeout, voteRespOf 2 1 true, .req (voteReqOf 3 2 0 0), .electionTimeout,
  voteRespOf 2 3 true]

/-- C53 fails when a server becomes leader again: it forgets that a request is outstanding and sends the next. -/
theorem two_requests_outstanding : ∃ fx s, Alive started electedTwice fx s ∧ asked 2 fx = 2 ∧
    answered 2 electedTwice = 0 ∧ s.role = .leader := by
  obtain ⟨fx, s, h, hp⟩ := live_check (s := started) (xs := electedTwice)
    (P := fun fx s => decide (asked 2 fx = 2 ∧ s.role = .leader)) (by decide +kernel)
  exact ⟨fx, s, h, (of_decide_eq_true hp).1, by decide +kernel, (of_decide_eq_true hp).2⟩

/-- The hypotheses can be met: a leader is asked to replicate, a heartbeat timer expires, and one of two answers comes in. -/
example : ∃ s0 fx0 s' fx, Alive started [.electionTimeout, voteRespOf 2 1 true] fx0 s0 ∧ s0.busyAt 2 = 1 ∧
    Alive s0 [cliReq 7, .hbTimeout 2, appendRespOf 2 1 2] fx s' ∧ s0.srvToJoin = none ∧ asked 2 fx = 1 ∧
    (∀ e ∈ fx, e.drops 2 = false) ∧ (∀ e ∈ fx, e.leads = false) := by
  obtain ⟨fx0, s0, h, hp⟩ := live_check (s := started) (xs := [.electionTimeout, voteRespOf 2 1 true])
    (P := fun _ s => decide (s.busyAt 2 = 1 ∧ s.srvToJoin = none) &&
      (match s.live [] [cliReq 7, .hbTimeout 2, appendRespOf 2 1 2] with
        | some (fx, _) => decide (asked 2 fx = 1 ∧ (∀ e ∈ fx, e.drops 2 = false) ∧ (∀ e ∈ fx, e.leads = false))
        | none => false)) (by decide +kernel)
  rw [Bool.and_eq_true] at hp
  obtain ⟨fx, s', h', hp'⟩ := live_check (P := fun fx _ =>
    decide (asked 2 fx = 1 ∧ (∀ e ∈ fx, e.drops 2 = false) ∧ (∀ e ∈ fx, e.leads = false))) hp.2
  obtain ⟨h1, h2⟩ := of_decide_eq_true hp.1
  exact ⟨s0, fx0, s', fx, h, h1, h', h2, of_decide_eq_true hp'⟩

end Cs.Raft
