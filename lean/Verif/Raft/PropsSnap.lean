import Verif.Raft.Reconf
import Verif.Raft.Play
import Verif.Raft.PropsLeader
import Verif.Raft.PropsMake
import Verif.Raft.PropsApi

/-!
# Sending snapshots (C48, C56, C60, C61)
-/

namespace Cs.Raft
open Cs

/-! ## Specification -/

/-- The requests among effects. -/
def sends (es : List Eff) : List Req := es.filterMap fun | .send r => some r | _ => none
/-- The answers among effects. -/
def answers (es : List Eff) : List Resp := es.filterMap fun | .reply r => some r | _ => none
/-- What the state machine is told about snapshots that arrive. -/
def arrivals (es : List Eff) : List Eff := es.filter fun | .saveSnpData .. => true | .applySnp _ => true | _ => false

/-- A request `q` of leader `L` goes to server `F`, which handles it, and `F`'s answer goes back to the leader, which handles
it. `fx` are the effects of the follower, `qs` the requests the leader sends then. -/
inductive Trip (L F : Srv) (q : Req) : List Eff → List Req → Srv → Srv → Prop
  | mk {L' F' : Srv} {resp : Resp} : (Input.req q).run { F with trace := [] } = (.ok ⟨⟩, F') → answers F'.trace = [resp] →
      (Input.peerResp q.type resp).run { L with trace := [] } = (.ok ⟨⟩, L') → Trip L F q F'.trace (sends L'.trace) L' F'

/-- Request after request until the leader has no more snapshot request to send. -/
inductive Transfer : Srv → Srv → Req → List Eff → Srv → Srv → Prop
  | last {L F L' F' : Srv} {q : Req} {fx : List Eff} {qs : List Req} : Trip L F q fx qs L' F' →
      (∀ r ∈ qs, r.type ≠ .snpReq) → Transfer L F q fx L' F'
  | more {L F L1 F1 L' F' : Srv} {q q1 : Req} {fx fx1 : List Eff} : Trip L F q fx1 [q1] L1 F1 → q1.type = .snpReq →
      Transfer L1 F1 q1 fx L' F' → Transfer L F q (fx1 ++ fx) L' F'

/-- `blocks` cut `bytes`, which start at offset `off`, in pieces of `1..b` bytes without gap and overlap. -/
def Cut (b : Nat) : Nat → List Byte → List (Nat × List Byte) → Prop
  | _, bytes, [] => bytes = []
  | off, bytes, (o, d) :: rest =>
    o = off ∧ d ≠ [] ∧ d.length ≤ b ∧ ∃ tail, bytes = d ++ tail ∧ Cut b (off + d.length) tail rest

/-! ## Peers -/

theorem find_setPeer (s : Srv) (i : Int) (f : Peer → Peer) (hf : ∀ p, (f p).id = p.id) :
    (s.setPeer (.member i) f).findPeer i = (s.findPeer i).map f := by
  show (s.peers.map fun p => if p.id == i then f p else p).find? (·.id == i) = _
  unfold Srv.findPeer
  rw [List.find?_map]
  have : ((fun p : Peer => p.id == i) ∘ fun p => if p.id == i then f p else p) = fun p => p.id == i := by
    funext p
    show ((if p.id == i then f p else p).id == i) = (p.id == i)
    by_cases h : (p.id == i) = true
    · rw [if_pos h, hf]
    · rw [if_neg h]
  rw [this]
  rcases h : s.peers.find? (·.id == i) with _ | p
  · rw [h]; rfl
  · rw [h]
    show some (if p.id == i then f p else p) = some (f p)
    rw [if_pos (List.find?_some h)]

/-- The leader while it sends a snapshot to server `j`: `off` bytes are acknowledged. -/
structure Sending (L : Srv) (j : Int) (snp : Snap) (bytes : List Byte) (off : Nat) (busy : Bool) : Prop where
  lead : L.role = .leader
  peer : ∃ p, L.findPeer j = some p ∧ p.snpCtx = some (snp, off) ∧ p.busy = busy ∧ 1 < p.nextIdx ∧ p.nextIdx < L.log.start
  latest : ∀ l, L.lastSnap = some l → l.lastIdx ≤ snp.lastIdx
  size : snp.size = bytes.length
  small : bytes.length < 2 ^ 31
  read : ∀ o n, o + n ≤ bytes.length → L.env.readRet snp o n = n ∧ L.env.readPos snp o n = 0 ∧
    L.env.readSnp snp o n = (bytes.drop o).take n
  block : 0 < blockSize L.params

/-- The request for the block at `off`. -/
def blockReq (L : Srv) (j : Int) (snp : Snap) (bytes : List Byte) (off : Nat) : Req :=
  { type := .snpReq, term := L.term, src := L.id, dst := j, lastTerm := snp.lastTerm, lastIdx := snp.lastIdx,
    commitIdx := L.quickCommit, entries := [⟨L.term, .snpSync⟩],
    sync := some ⟨snp, off, (bytes.drop off).take (blockSize L.params).toNat,
      decide (bytes.length ≤ off + (blockSize L.params).toNat)⟩ }

theorem toI32_small {n : Nat} (h : n < 2 ^ 31) : toI32 (n : Int) = n := by
  unfold toI32
  rw [BitVec.toInt_ofInt, Int.bmod_eq_of_le] <;> omega

theorem left_bytes {size off : Nat} (h : off ≤ size) (hs : size < 2 ^ 31) :
    toI32 (subU64 size off) = ((size - off : Nat) : Int) := by
  have : subU64 size off = size - off := by unfold subU64; omega
  rw [this]
  exact toI32_small (by omega)

theorem run_createSync {L : Srv} {j : Int} {snp : Snap} {bytes : List Byte} {off : Nat} {b : Bool}
    (h : Sending L j snp bytes off b) (ho : off < bytes.length) (li : Nat) :
    createSyncSnapshotReq (.member j) li L.term L.quickCommit L = (.ok (blockReq L j snp bytes off), L) := by
  obtain ⟨p, hp, hc, hb, hn1, hn2⟩ := h.peer
  have hp' : L.peer (.member j) = some p := hp
  have hid : p.id = j := by have := List.find?_some hp; simpa using this
  have h1 : chooseSnap (.member j) li L = (.ok ⟨⟩, L) := by
    unfold chooseSnap
    rw [bind_get, run_bind_ok (getPeer_some hp'), if_neg]
    · rfl
    · rw [hc]
      rcases hl : L.lastSnap with _ | l
      · simp
      · have := h.latest l hl
        simp only [decide_eq_true_eq]
        omega
  unfold createSyncSnapshotReq
  rw [run_bind_ok h1, bind_get, run_bind_ok (getPeer_some hp'), hc]
  have hbl := h.block
  have hm : min (blockSize L.params) (toI32 (subU64 snp.size off)) =
      ((min (blockSize L.params).toNat (bytes.length - off) : Nat) : Int) := by
    rw [h.size, left_bytes (by omega) h.small]
    omega
  have hlen := h.small
  have hr : L.env.block snp off (min (blockSize L.params).toNat (bytes.length - off)) =
      (bytes.drop off).take (blockSize L.params).toNat := by
    unfold Env.block Env.held
    rw [(h.read _ _ (by omega)).2.1, List.drop_zero, (h.read _ _ (by omega)).2.2, List.take_append_of_le_length (by rw [List.length_take, List.length_drop]; omega),
      List.take_take, List.take_eq_take_iff, List.length_drop]
    omega
  have hs : ¬ L.env.short snp off (min (blockSize L.params).toNat (bytes.length - off)) := by
    unfold Env.short
    rw [(h.read _ _ (by omega)).1]
    omega
  show (if min (blockSize L.params) (toI32 (subU64 snp.size off)) < 0 then throw .thrown
    else
      if L.env.short snp off (min (blockSize L.params) (toI32 (subU64 snp.size off))).toNat then die (-1)
      else
        pure { type := .snpReq, term := L.term, src := L.id, dst := p.id, lastTerm := snp.lastTerm,
               lastIdx := snp.lastIdx, commitIdx := L.quickCommit, entries := [⟨L.term, .snpSync⟩],
               sync := some ⟨snp, off,
                 L.env.block snp off (min (blockSize L.params) (toI32 (subU64 snp.size off))).toNat,
                 decide (snp.size ≤ off + (min (blockSize L.params) (toI32 (subU64 snp.size off))).toNat)⟩ } : R Req) L = _
  rw [hm, Int.toNat_natCast, hr, hid]
  rw [if_neg (by omega), if_neg hs]
  unfold blockReq
  have hd : decide (snp.size ≤ off + min (blockSize L.params).toNat (bytes.length - off)) =
      decide (bytes.length ≤ off + (blockSize L.params).toNat) := by
    rw [h.size]
    exact decide_eq_decide.2 (by omega)
  rw [hd]
  rfl

/-- Changing the peer in a way that does not concern the transfer. -/
theorem Sending.setPeer {L : Srv} {j : Int} {snp : Snap} {bytes : List Byte} {off off' : Nat} {b b' : Bool}
    (h : Sending L j snp bytes off b) (f : Peer → Peer)
    (hf : ∀ p, (f p).cfg = p.cfg ∧ (f p).nextIdx = p.nextIdx ∧
      (p.snpCtx = some (snp, off) → (f p).snpCtx = some (snp, off')) ∧ (p.busy = b → (f p).busy = b')) :
    Sending (L.setPeer (.member j) f) j snp bytes off' b' := by
  obtain ⟨p, h1, h2, h3, h4, h5⟩ := h.peer
  refine ⟨h.lead, ⟨f p, ?_, (hf p).2.2.1 h2, (hf p).2.2.2 h3, by rw [(hf p).2.1]; exact h4, by rw [(hf p).2.1]; exact h5⟩,
    h.latest, h.size, h.small, h.read, h.block⟩
  rw [find_setPeer _ _ _ fun p => congrArg SrvCfg.id (hf p).1, h1]
  rfl

theorem Sending.emit {L : Srv} {j : Int} {snp : Snap} {bytes : List Byte} {off : Nat} {b : Bool}
    (h : Sending L j snp bytes off b) (es : List Eff) : Sending { L with trace := es } j snp bytes off b :=
  ⟨h.lead, h.peer, h.latest, h.size, h.small, h.read, h.block⟩

/-- `L` and `L'` are the same but for the peers and the effects. -/
structure SameL (L L' : Srv) : Prop where
  id : L'.id = L.id
  term : L'.term = L.term
  commit : L'.quickCommit = L.quickCommit
  params : L'.params = L.params
  log : L'.log = L.log
  smSnap : L'.smSnap = L.smSnap

theorem SameL.refl (L : Srv) : SameL L L := ⟨rfl, rfl, rfl, rfl, rfl, rfl⟩
theorem SameL.trans {a b c : Srv} (h : SameL a b) (g : SameL b c) : SameL a c :=
  ⟨g.id.trans h.id, g.term.trans h.term, g.commit.trans h.commit, g.params.trans h.params, g.log.trans h.log,
    g.smSnap.trans h.smSnap⟩
theorem SameL.block {L L' : Srv} (h : SameL L L') (j : Int) (snp : Snap) (bytes : List Byte) (off : Nat) :
    blockReq L' j snp bytes off = blockReq L j snp bytes off := by
  unfold blockReq
  rw [h.id, h.term, h.commit, h.params]

/-- The leader sends the next block when it has something to send to this peer. -/
theorem run_requestAppend_block {L : Srv} {j : Int} {snp : Snap} {bytes : List Byte} {off : Nat}
    (h : Sending L j snp bytes off false) (ho : off < bytes.length) :
    ∃ L', requestAppend (.member j) L = (.ok true, L') ∧ Sending L' j snp bytes off true ∧ SameL L L' ∧
      L'.trace = L.trace ++ [.send (blockReq L j snp bytes off)] := by
  obtain ⟨p, hp, _, hb, _, _⟩ := h.peer
  unfold requestAppend
  rw [run_bind_ok (getPeer_some (show L.peer (.member j) = some p from hp)), if_neg (by rw [hb]; simp), bind_modPeer]
  have h1 := h.setPeer (off' := off) (b' := true) (fun p => { p with busy := true })
    fun p => ⟨rfl, rfl, fun h => h, fun _ => rfl⟩
  have e1 : SameL L (L.setPeer (.member j) fun p => { p with busy := true }) := ⟨rfl, rfl, rfl, rfl, rfl, rfl⟩
  have t1 : (L.setPeer (.member j) fun p => { p with busy := true }).trace = L.trace := rfl
  generalize (L.setPeer (.member j) fun p => { p with busy := true }) = L1 at h1 e1 t1
  have h2 := h1.setPeer (off' := off) (b' := true) (fun p => if p.nextIdx = 0 then { p with nextIdx := L1.log.next } else p)
  obtain ⟨q, hq, _, _, hn1, hn2⟩ := h1.peer
  have hreq : createAppendReq (.member j) L1 = (.ok (blockReq L1 j snp bytes off),
      L1.setPeer (.member j) fun p => if p.nextIdx = 0 then { p with nextIdx := L1.log.next } else p) := by
    unfold createAppendReq
    rw [bind_get, bind_modPeer]
    have hq2 : (L1.setPeer (.member j) fun p => if p.nextIdx = 0 then { p with nextIdx := L1.log.next } else p).peer
        (.member j) = some q := by
      show Srv.findPeer _ j = _
      rw [find_setPeer _ _ _ (by intro p; split <;> rfl), hq]
      show some (if q.nextIdx = 0 then _ else q) = some q
      rw [if_neg (by omega)]
    have h2 : Sending (L1.setPeer (.member j) fun p => if p.nextIdx = 0 then { p with nextIdx := L1.log.next } else p)
        j snp bytes off true := by
      obtain ⟨p, c1, c2, c3, c4, c5⟩ := h1.peer
      exact ⟨h1.lead, ⟨q, hq2, by rw [c1] at hq; cases hq; exact c2, by rw [c1] at hq; cases hq; exact c3, hn1, hn2⟩,
        h1.latest, h1.size, h1.small, h1.read, h1.block⟩
    have e2 : SameL L1 (L1.setPeer (.member j) fun p => if p.nextIdx = 0 then { p with nextIdx := L1.log.next } else p) :=
      ⟨rfl, rfl, rfl, rfl, rfl, rfl⟩
    rw [run_bind_ok (getPeer_some hq2), if_neg (by unfold Log.next; omega), if_pos (by omega)]
    rw [← e2.block j snp bytes off]
    exact run_createSync h2 ho _
  rw [run_bind_ok hreq, bind_emit]
  refine ⟨_, rfl, ?_, e1.trans ⟨rfl, rfl, rfl, rfl, rfl, rfl⟩, ?_⟩
  · refine Sending.emit ?_ _
    obtain ⟨p, c1, c2, c3, c4, c5⟩ := h1.peer
    refine ⟨h1.lead, ⟨p, ?_, c2, c3, c4, c5⟩, h1.latest, h1.size, h1.small, h1.read, h1.block⟩
    rw [find_setPeer _ _ _ (by intro p; split <;> rfl), c1]
    show some (if p.nextIdx = 0 then _ else p) = some p
    rw [if_neg (by omega)]
  · show L1.trace ++ [.send (blockReq L1 j snp bytes off)] = _
    rw [t1, e1.block]

/-- What the leader does with the bookkeeping of a peer when it gets an answer to a snapshot request. -/
def Srv.heardBack (L : Srv) (j : Int) : Srv :=
  ((L.setPeer (.member j) fun p => if MsgType.snpReq = .appendReq ∨ MsgType.snpReq = .snpReq then
      { p with busy := false } else p).setPeer (.member j) (resumeHb L.params)).setPeer (.member j)
    fun p => { p with lastResp := L.now }

/-- The answers a follower gives to snapshot requests, as far as the leader looks at them. -/
structure SnpAnswer (L : Srv) (j : Int) (r : Resp) : Prop where
  type : r.type = .snpResp
  term : r.term = L.term
  src : r.src = j

theorem Sending.heardBack {L : Srv} {j : Int} {snp : Snap} {bytes : List Byte} {off : Nat} {b : Bool}
    (h : Sending L j snp bytes off b) : Sending (L.heardBack j) j snp bytes off false := by
  unfold Srv.heardBack
  refine Sending.setPeer (off := off) (b := false) (Sending.setPeer (off := off) (b := false)
    (Sending.setPeer (off := off) (b := b) h _ ?_) _ ?_) _ ?_
  · intro p; rw [if_pos (.inr rfl)]; exact ⟨rfl, rfl, fun h => h, fun _ => rfl⟩
  · intro p; exact ⟨rfl, rfl, fun h => h, fun h => h⟩
  · intro p; exact ⟨rfl, rfl, fun h => h, fun h => h⟩

theorem heardBack_same (L : Srv) (j : Int) : SameL L (L.heardBack j) := ⟨rfl, rfl, rfl, rfl, rfl, rfl⟩
theorem heardBack_trace (L : Srv) (j : Int) : (L.heardBack j).trace = L.trace := rfl

theorem run_snpAnswer {L : Srv} {j : Int} {r : Resp} (hr : SnpAnswer L j r) (hp : (L.findPeer j).isSome = true) :
    (Input.peerResp .snpReq r).run L = handleSnpResp r (L.heardBack j) := by
  show (rpcResult (.member r.src) .snpReq true >>= fun _ => handlePeerResp r) L = _
  rw [hr.src]
  unfold rpcResult
  have h1 : (do
      let s ← get
      modPeer (.member j) fun p => if MsgType.snpReq = .appendReq ∨ MsgType.snpReq = .snpReq then
        { p with busy := false } else p
      modPeer (.member j) (if true then resumeHb s.params else slowDownHb s.params) : R Unit) L =
    (.ok ⟨⟩, (L.setPeer (.member j) fun p => if MsgType.snpReq = .appendReq ∨ MsgType.snpReq = .snpReq then
      { p with busy := false } else p).setPeer (.member j) (resumeHb L.params)) := rfl
  rw [run_bind_ok h1]
  unfold handlePeerResp
  rw [bind_get, hr.src]
  have h2 : (((L.setPeer (.member j) fun p => if MsgType.snpReq = .appendReq ∨ MsgType.snpReq = .snpReq then
      { p with busy := false } else p).setPeer (.member j) (resumeHb L.params)).findPeer j).isNone = false := by
    rw [find_setPeer _ _ _ (by intro p; rfl), find_setPeer _ _ _ (by intro p; split <;> rfl)]
    rcases h : L.findPeer j with _ | p
    · rw [h] at hp; cases hp
    · rfl
  rw [if_neg (by rw [h2]; simp), bind_modPeer]
  show (updateTerm r.term >>= fun newer => if newer = true then pure () else dispatchResp r) (L.heardBack j) = _
  rw [run_bind_ok (run_updateTerm_le (by rw [(heardBack_same L j).term, hr.term]; exact Nat.le_refl _))]
  show dispatchResp r _ = _
  unfold dispatchResp
  rw [hr.type]

theorem run_handleSnpResp {r : Resp} {L L' : Srv} {j : Int} {m : Bool} (hj : r.src = j) (hp : (L.findPeer j).isSome = true)
    (h : (if r.accepted then acceptedSnpResp r else pure true : R Bool) L = (.ok m, L')) :
    handleSnpResp r L = (if L'.role = .leader ∧ m = true then requestAppendTo j else pure () : R Unit) L' := by
  unfold handleSnpResp
  rw [bind_get, hj, if_neg (by rw [Option.isNone_iff_eq_none]; rintro h; rw [h] at hp; cases hp)]
  by_cases ha : r.accepted = true
  · rw [if_pos ha] at h ⊢; rw [run_bind_ok h]; rfl
  · rw [if_neg ha] at h ⊢; rw [run_bind_ok h]; rfl

/-- The leader gets the acknowledgement of a block and sends the next one. -/
theorem run_ack {L : Srv} {j : Int} {snp : Snap} {bytes : List Byte} {off off' : Nat} {b : Bool} {r : Resp}
    (h : Sending L j snp bytes off b) (hr : SnpAnswer L j r) (ha : r.accepted = true) (hn : r.nextIdx = off')
    (ho : off' < bytes.length) :
    ∃ L', (Input.peerResp .snpReq r).run L = (.ok ⟨⟩, L') ∧ Sending L' j snp bytes off' true ∧ SameL L L' ∧
      L'.trace = L.trace ++ [.send (blockReq L j snp bytes off')] := by
  obtain ⟨p0, hp0, _⟩ := h.peer
  rw [run_snpAnswer hr (by rw [hp0]; rfl)]
  have h1 := h.heardBack
  have e1 := heardBack_same L j
  rw [← heardBack_trace L j]
  generalize L.heardBack j = L1 at h1 e1
  obtain ⟨p, hp, hc, _⟩ := h1.peer
  have h2 : acceptedSnpResp r L1 = (.ok true, L1.setPeer (.member j) fun p => { p with snpCtx := some (snp, off') }) := by
    unfold acceptedSnpResp
    rw [hr.src, run_bind_ok (getPeer_some (show L1.peer (.member j) = some p from hp)), hc]
    show (if snp.size ≤ r.nextIdx then _ else _ : R Bool) L1 = _
    rw [if_neg (by rw [h.size, hn]; omega), bind_modPeer, hn]
    rfl
  rw [run_handleSnpResp hr.src (by rw [hp]; rfl) (by rw [if_pos ha]; exact h2)]
  have h3 := h1.setPeer (off' := off') (b' := false) (fun p => { p with snpCtx := some (snp, off') })
    fun p => ⟨rfl, rfl, fun _ => rfl, fun h => h⟩
  rw [if_pos ⟨h3.lead, rfl⟩]
  obtain ⟨L', h4, h5, h6, h7⟩ := run_requestAppend_block h3 ho
  have e2 : SameL L1 (L1.setPeer (.member j) fun p => { p with snpCtx := some (snp, off') }) :=
    ⟨rfl, rfl, rfl, rfl, rfl, rfl⟩
  refine ⟨L', ?_, h5, e1.trans (e2.trans h6), ?_⟩
  · unfold requestAppendTo
    rw [run_bind_ok h4]; rfl
  · rw [h7]
    show L1.trace ++ _ = _
    rw [e2.block, e1.block]

/-- A refusal makes the leader send the same block again. -/
theorem run_refusal {L : Srv} {j : Int} {snp : Snap} {bytes : List Byte} {off : Nat} {b : Bool} {r : Resp}
    (h : Sending L j snp bytes off b) (hr : SnpAnswer L j r) (ha : r.accepted = false) (ho : off < bytes.length) :
    ∃ L', (Input.peerResp .snpReq r).run L = (.ok ⟨⟩, L') ∧ Sending L' j snp bytes off true ∧ SameL L L' ∧
      L'.trace = L.trace ++ [.send (blockReq L j snp bytes off)] := by
  obtain ⟨p0, hp0, _⟩ := h.peer
  rw [run_snpAnswer hr (by rw [hp0]; rfl)]
  have h1 := h.heardBack
  have e1 := heardBack_same L j
  rw [← heardBack_trace L j]
  generalize L.heardBack j = L1 at h1 e1
  obtain ⟨p, hp, hc, _⟩ := h1.peer
  rw [run_handleSnpResp (L' := L1) (m := true) hr.src (by rw [hp]; rfl) (by rw [if_neg (by rw [ha]; simp)]; rfl),
    if_pos ⟨h1.lead, rfl⟩]
  obtain ⟨L', h4, h5, h6, h7⟩ := run_requestAppend_block h1 ho
  refine ⟨L', ?_, h5, e1.trans h6, ?_⟩
  · unfold requestAppendTo
    rw [run_bind_ok h4]; rfl
  · rw [h7, e1.block]

/-- The request for the entries behind `k`. -/
theorem run_requestAppend_entries {L : Srv} {j : Int} {p : Peer} {k t : Nat} (hp : L.findPeer j = some p)
    (hb : p.busy = false) (hk : p.nextIdx = k + 1) (h0 : 0 < k) (h1 : k < L.log.next) (h2 : L.log.start ≤ k + 1)
    (ht : termFor L k = some t) :
    ∃ L' q, requestAppend (.member j) L = (.ok true, L') ∧ q.type = .appendReq ∧ q.lastIdx = k ∧ q.dst = j ∧
      L'.trace = L.trace ++ [.send q] ∧ L'.findPeer j = some { p with busy := true } := by
  have hid : p.id = j := by have := List.find?_some hp; simpa using this
  unfold requestAppend
  rw [run_bind_ok (getPeer_some (show L.peer (.member j) = some p from hp)), if_neg (by rw [hb]; simp), bind_modPeer]
  have f1 : (L.setPeer (.member j) fun p => { p with busy := true }).findPeer j = some { p with busy := true } := by
    rw [find_setPeer _ _ _ (by intro p; rfl), hp]; rfl
  have e1 : SameL L (L.setPeer (.member j) fun p => { p with busy := true }) := ⟨rfl, rfl, rfl, rfl, rfl, rfl⟩
  have t1 : (L.setPeer (.member j) fun p => { p with busy := true }).trace = L.trace := rfl
  generalize (L.setPeer (.member j) fun p => { p with busy := true }) = L1 at f1 e1 t1
  have hreq : ∃ q L2, createAppendReq (.member j) L1 = (.ok q, L2) ∧ L2.trace = L.trace ∧
      L2.findPeer j = some { p with busy := true } ∧ q.type = .appendReq ∧ q.lastIdx = k ∧ q.dst = j := by
    have f2 : (L1.setPeer (.member j) fun p => if p.nextIdx = 0 then { p with nextIdx := L1.log.next } else p).findPeer j =
        some { p with busy := true } := by
      rw [find_setPeer _ _ _ (by intro p; split <;> rfl), f1]
      show some (if p.nextIdx = 0 then _ else _) = _
      rw [if_neg (by omega)]
    have e2 : SameL L1 (L1.setPeer (.member j) fun p => if p.nextIdx = 0 then { p with nextIdx := L1.log.next } else p) :=
      ⟨rfl, rfl, rfl, rfl, rfl, rfl⟩
    have t2 : (L1.setPeer (.member j) fun p => if p.nextIdx = 0 then { p with nextIdx := L1.log.next } else p).trace =
      L.trace := t1
    unfold createAppendReq
    rw [bind_get, bind_modPeer]
    generalize (L1.setPeer (.member j) fun p => if p.nextIdx = 0 then { p with nextIdx := L1.log.next } else p) = L2
      at f2 e2 t2
    have g2 : getPeer (.member j) L2 = (.ok { p with busy := true }, L2) := getPeer_some f2
    rw [run_bind_ok g2]
    have hk' : ({ p with busy := true } : Peer).nextIdx = k + 1 := hk
    have e3 := e1.trans e2
    rw [hk', Nat.add_sub_cancel, if_neg (by rw [e1.log]; omega), if_neg (by rw [e1.log]; omega)]
    unfold appendReqFrom
    have ht2 : termFor L2 k = some t := by
      unfold termFor at ht ⊢
      rw [e3.log, e3.smSnap]
      exact ht
    rw [run_bind_ok (termForLog_some ht2), run_bind_ok (entriesFrom_ok (.inr (by rw [e3.log]; exact h2))), bind_get,
      run_bind_ok g2]
    exact ⟨_, L2, rfl, t2, f2.trans (by rw [← hk]), rfl, rfl, hid⟩
  obtain ⟨q, L2, c1, c2, c3, c4, c5, c6⟩ := hreq
  rw [run_bind_ok c1, bind_emit]
  exact ⟨_, q, rfl, c4, c5, c6, by rw [c2], c3⟩

/-- The leader gets the acknowledgement of the last block: it goes on with the entries behind the snapshot, at once or with
the next heartbeat. -/
theorem run_lastAck {L : Srv} {j : Int} {snp : Snap} {bytes : List Byte} {off t : Nat} {b : Bool} {r : Resp}
    (h : Sending L j snp bytes off b) (hr : SnpAnswer L j r) (ha : r.accepted = true) (hn : r.nextIdx = bytes.length)
    (h0 : 0 < snp.lastIdx) (h1 : snp.lastIdx < L.log.next) (h2 : L.log.start ≤ snp.lastIdx + 1)
    (ht : termFor L snp.lastIdx = some t) :
    ∃ L' p', (Input.peerResp .snpReq r).run L = (.ok ⟨⟩, L') ∧ L'.findPeer j = some p' ∧ p'.nextIdx = snp.lastIdx + 1 ∧
      p'.matched = snp.lastIdx ∧ p'.snpCtx = none ∧
      ∃ qs : List Req, L'.trace = L.trace ++ qs.map Eff.send ∧ ∀ q ∈ qs, q.type = .appendReq ∧ q.lastIdx = snp.lastIdx := by
  obtain ⟨p0, hp0, _⟩ := h.peer
  rw [run_snpAnswer hr (by rw [hp0]; rfl)]
  have g1 := h.heardBack
  have e1 := heardBack_same L j
  rw [← heardBack_trace L j]
  generalize L.heardBack j = L1 at g1 e1
  obtain ⟨p, hp, hc, hb, _⟩ := g1.peer
  have e2 : SameL L1 (L1.setPeer (.member j) fun p =>
      { p with nextIdx := snp.lastIdx + 1, matched := snp.lastIdx, snpCtx := none, pending := false }) :=
    ⟨rfl, rfl, rfl, rfl, rfl, rfl⟩
  have t2 : (L1.setPeer (.member j) fun p =>
      { p with nextIdx := snp.lastIdx + 1, matched := snp.lastIdx, snpCtx := none, pending := false }).trace = L1.trace := rfl
  have f2 : (L1.setPeer (.member j) fun p =>
      { p with nextIdx := snp.lastIdx + 1, matched := snp.lastIdx, snpCtx := none, pending := false }).findPeer j =
      some { p with nextIdx := snp.lastIdx + 1, matched := snp.lastIdx, snpCtx := none, pending := false } := by
    rw [find_setPeer _ _ _ (by intro p; rfl), hp]; rfl
  have h3 : ∃ m, acceptedSnpResp r L1 = (.ok m, L1.setPeer (.member j) fun p =>
      { p with nextIdx := snp.lastIdx + 1, matched := snp.lastIdx, snpCtx := none, pending := false }) := by
    unfold acceptedSnpResp
    rw [hr.src, run_bind_ok (getPeer_some (show L1.peer (.member j) = some p from hp)), hc]
    show ∃ m, (if snp.size ≤ r.nextIdx then _ else _ : R Bool) L1 = (.ok m, _)
    rw [if_pos (by rw [h.size, hn]; exact Nat.le_refl _), bind_modPeer]
    exact ⟨_, rfl⟩
  obtain ⟨m, h3⟩ := h3
  rw [run_handleSnpResp hr.src (by rw [hp]; rfl) (by rw [if_pos ha]; exact h3)]
  generalize (L1.setPeer (.member j) fun p =>
      { p with nextIdx := snp.lastIdx + 1, matched := snp.lastIdx, snpCtx := none, pending := false }) = L2 at e2 t2 f2
  have e3 := e1.trans e2
  have ht2 : termFor L2 snp.lastIdx = some t := by
    unfold termFor at ht ⊢
    rw [e3.log, e3.smSnap]
    exact ht
  by_cases hm : L2.role = .leader ∧ m = true
  · rw [if_pos hm]
    obtain ⟨L', q, c1, c2, c3, _, c4, c5⟩ := run_requestAppend_entries (k := snp.lastIdx) f2 hb rfl h0
      (by rw [e3.log]; exact h1) (by rw [e3.log]; exact h2) ht2
    refine ⟨L', _, ?_, c5, rfl, rfl, rfl, [q], by rw [c4, t2]; rfl, ?_⟩
    · unfold requestAppendTo; rw [run_bind_ok c1]; rfl
    · intro q' hq'
      rw [List.mem_singleton.1 hq']
      exact ⟨c2, c3⟩
  · rw [if_neg hm]
    exact ⟨L2, _, rfl, f2, rfl, rfl, rfl, [], by rw [t2]; exact (List.append_nil _).symm, by simp⟩

/-! ## The follower -/

/-- A member `F` that accepts the snapshot `snp` from the leader of term `t`. -/
structure Taking (F : Srv) (j : Int) (t : Nat) (snp : Snap) : Prop where
  id : F.id = j
  term : F.term ≤ t
  role : F.term = t → F.role ≠ .leader
  joined : F.catchingUp = false
  behind : F.smCommit < snp.lastIdx
  start : F.log.start ≤ snp.lastIdx
  self : F.id ∉ F.peers.map Peer.id
  member : snp.config.has F.id = true
  compact : F.env.compactOk snp.lastIdx = true
  apply : F.env.applySnp snp = true

/-- From `F` to `F'` the log stays, nothing is said about snapshots and no answer is given. -/
def Hushed (F F' : Srv) : Prop :=
  F'.log = F.log ∧ arrivals F'.trace = arrivals F.trace ∧ answers F'.trace = answers F.trace
theorem Hushed.trans {a b c : Srv} (h : Hushed a b) (g : Hushed b c) : Hushed a c :=
  ⟨g.1.trans h.1, g.2.1.trans h.2.1, g.2.2.trans h.2.2⟩

theorem disableHb_ids (ps : List Peer) : (ps.map disableHb).map Peer.id = ps.map Peer.id := by
  rw [List.map_map]
  rfl

theorem Taking.heard {F : Srv} {j : Int} {t : Nat} {snp : Snap} {r : Req} (h : Taking F j t snp) (hr : r.type = .snpReq)
    (ht : r.term = t) : Taking (F.heard r) j t snp ∧ (F.heard r).term = t ∧ Hushed F (F.heard r) := by
  unfold Srv.heard
  rw [if_pos (.inr (.inr hr)), ht]
  have h1 := h.term
  by_cases h2 : F.term < t
  · rw [if_pos h2]
    refine ⟨⟨h.id, Nat.le_refl _, fun _ => (by intro h; cases h), h.joined, h.behind, h.start, ?_, h.member, h.compact,
      h.apply⟩, rfl, rfl, ?_, ?_⟩
    · show F.id ∉ (F.peers.map disableHb).map Peer.id
      rw [disableHb_ids]; exact h.self
    · show arrivals ((F.trace ++ [_]) ++ [_]) = _
      unfold arrivals; simp
    · show answers ((F.trace ++ [_]) ++ [_]) = _
      unfold answers; simp
  · rw [if_neg h2]
    exact ⟨⟨h.id, h.term, h.role, h.joined, h.behind, h.start, h.self, h.member, h.compact, h.apply⟩,
      show F.term = t by omega, rfl, rfl, rfl⟩

theorem run_hearSnapshotLeader {F : Srv} {j : Int} {t : Nat} {snp : Snap} {r : Req} (h : Taking F j t snp)
    (ht : r.term = t) (hF : F.term = t) :
    ∃ F', hearSnapshotLeader r F = (.ok ⟨⟩, F') ∧ Taking F' j t snp ∧ F'.term = t ∧ F'.role = .follower ∧ Hushed F F' := by
  unfold hearSnapshotLeader
  rw [bind_get, if_pos ⟨ht.trans hF.symm, h.joined⟩]
  have h1 := h.role hF
  rcases hr : F.role with _ | _ | _
  · refine ⟨_, run_restart F, ⟨h.id, h.term, h.role, h.joined, h.behind, h.start, h.self, h.member, h.compact, h.apply⟩,
      hF, hr, rfl, rfl, rfl⟩
  · refine ⟨_, run_becomeFollower F, ⟨h.id, h.term, fun _ => (by intro h; cases h), h.joined, h.behind, h.start, ?_,
      h.member, h.compact, h.apply⟩, hF, rfl, rfl, ?_, ?_⟩
    · show F.id ∉ (F.peers.map disableHb).map Peer.id
      rw [disableHb_ids]; exact h.self
    · show arrivals (F.trace ++ [_]) = _
      unfold arrivals; simp
    · show answers (F.trace ++ [_]) = _
      unfold answers; simp
  · exact absurd hr h1

theorem arrivals_append (a b : List Eff) : arrivals (a ++ b) = arrivals a ++ arrivals b := List.filter_append ..
theorem answers_append (a b : List Eff) : answers (a ++ b) = answers a ++ answers b := List.filterMap_append ..
theorem sends_append (a b : List Eff) : sends (a ++ b) = sends a ++ sends b := List.filterMap_append ..

/-- A server after a snapshot has been installed. -/
structure Installed (F F' : Srv) (snp : Snap) : Prop where
  commit : F'.smCommit = snp.lastIdx
  quick : F'.quickCommit = snp.lastIdx
  log : F'.log = F.log.compact snp.lastIdx
  config : F'.config = snp.config

theorem run_installSnapshot {F : Srv} {j : Int} {t : Nat} {snp : Snap} (h : Taking F j t snp) :
    ∃ F', installSnapshot snp F = (.ok true, F') ∧ Installed F F' snp ∧
      arrivals F'.trace = arrivals F.trace ++ [.applySnp snp] ∧ answers F'.trace = answers F.trace := by
  have hs := h.start
  unfold installSnapshot
  rw [bind_get, if_neg (by omega)]
  have h1 : logCompact snp.lastIdx F =
      (.ok true, { F with log := F.log.compact snp.lastIdx, trace := F.trace ++ [.compact snp.lastIdx] }) := by
    unfold logCompact
    rw [bind_get, if_neg (by omega), if_pos h.compact]
    rfl
  rw [run_bind_ok h1, if_pos rfl]
  have h2 : stopElectionTimer { F with log := F.log.compact snp.lastIdx, trace := F.trace ++ [.compact snp.lastIdx] } =
      (.ok ⟨⟩, { F with log := F.log.compact snp.lastIdx, trace := F.trace ++ [.compact snp.lastIdx], armed := false }) := rfl
  rw [run_bind_ok h2, bind_emit, if_neg (by rw [h.apply]; simp), bind_modify]
  obtain ⟨F1, _, c1, c2, c3, c4, _⟩ := reconfigure_stays (s := { F with
      log := F.log.compact snp.lastIdx, trace := (F.trace ++ [.compact snp.lastIdx]) ++ [.applySnp snp], armed := false,
      smSnap := some snp }) (c := snp.config) h.self (.inl h.member)
  rw [run_bind_ok c1, bind_get, bind_emit, bind_modify, bind_saveState, bind_modify, run_bind_ok (run_restart _)]
  refine ⟨_, rfl, ⟨rfl, rfl, c4, c2⟩, ?_, ?_⟩
  · show arrivals ((F1.trace ++ [_]) ++ [_]) = _
    rw [c3]
    unfold arrivals; simp
  · show answers ((F1.trace ++ [_]) ++ [_]) = _
    rw [c3]
    unfold answers; simp

/-- The answer to an accepted block that ends at `n`. -/
def snpAck (t : Nat) (j dst : Int) (n : Nat) : Resp :=
  { type := .snpResp, term := t, src := j, dst := dst, nextIdx := n, accepted := true }

/-- A snapshot request the server does not refuse. -/
theorem run_snpReq {F : Srv} {j : Int} {t : Nat} {snp : Snap} {r : Req} {e : Nat} {q : SnpSync}
    (h : Taking F j t snp) (hr : r.type = .snpReq) (ht : r.term = t) (he : r.entries = [⟨e, .snpSync⟩])
    (hs : r.sync = some q) (hq : q.snap = snp) :
    ∃ F1, Taking F1 j t snp ∧ F1.role = .follower ∧ Hushed F F1 ∧ ∀ F2, handleSnapshotSync q F1 = (.ok true, F2) →
      (Input.req r).run F =
        (.ok ⟨⟩, { F2 with trace := F2.trace ++ [.reply (snpAck t j r.src (q.offset + q.data.length))] }) := by
  have hd : processReq r F = handleInstallSnapshot r (F.heard r) := by
    rw [run_processReq]; unfold dispatch handleExtended; rw [hr]
  obtain ⟨h1, h2, h3⟩ := h.heard hr ht
  obtain ⟨F1, c1, c2, c3, c4, c5⟩ := run_hearSnapshotLeader h1 ht h2
  refine ⟨F1, c2, c4, h3.trans c5, fun F2 g => ?_⟩
  have hb := c2.behind
  have hp : processReq r F = (.ok (snpAck t j r.src (q.offset + q.data.length)), F2) := by
    rw [hd]
    unfold handleInstallSnapshot
    rw [run_bind_ok c1, bind_get, if_neg (by omega), he, hs]
    show (if q.snap.lastIdx ≤ F1.smCommit then _ else _ : R Resp) F1 = _
    rw [hq, if_neg (by omega), run_bind_ok g, if_pos rfl, c2.id, c3]
    rfl
  show (processReq r >>= fun resp => emit (.reply resp)) F = _
  rw [run_bind_ok hp]
  rfl

/-- A block that is not the last one. -/
theorem run_block {F : Srv} {j : Int} {t : Nat} {snp : Snap} {r : Req} {e : Nat} {off : Nat} {d : List Byte}
    (h : Taking F j t snp) (hr : r.type = .snpReq) (ht : r.term = t) (he : r.entries = [⟨e, .snpSync⟩])
    (hs : r.sync = some ⟨snp, off, d, false⟩) :
    ∃ F' resp, (Input.req r).run F = (.ok ⟨⟩, F') ∧ Taking F' j t snp ∧ F'.log = F.log ∧
      arrivals F'.trace = arrivals F.trace ++ [.saveSnpData snp off d] ∧ answers F'.trace = answers F.trace ++ [resp] ∧
      resp.type = .snpResp ∧ resp.term = t ∧ resp.src = j ∧ resp.accepted = true ∧ resp.nextIdx = off + d.length := by
  obtain ⟨F1, c1, c2, ⟨c3, c4, c5⟩, c6⟩ := run_snpReq h hr ht he hs rfl
  have h1 : handleSnapshotSync ⟨snp, off, d, false⟩ F1 =
      (.ok true, { F1 with trace := F1.trace ++ [.saveSnpData snp off d] }) := rfl
  refine ⟨_, snpAck t j r.src (off + d.length), c6 _ h1, ⟨c1.id, c1.term, c1.role, c1.joined, c1.behind, c1.start, c1.self, c1.member, c1.compact,
    c1.apply⟩, c3, ?_, ?_, rfl, rfl, rfl, rfl, rfl⟩
  · show arrivals ((F1.trace ++ [_]) ++ [_]) = _
    rw [arrivals_append, arrivals_append, c4]
    exact List.append_nil _
  · show answers ((F1.trace ++ [_]) ++ [_]) = _
    rw [answers_append, answers_append, c5]
    exact congrArg (· ++ _) (List.append_nil _)

/-- The last block. -/
theorem run_lastBlock {F : Srv} {j : Int} {t : Nat} {snp : Snap} {r : Req} {e : Nat} {off : Nat} {d : List Byte}
    (h : Taking F j t snp) (hr : r.type = .snpReq) (ht : r.term = t) (he : r.entries = [⟨e, .snpSync⟩])
    (hs : r.sync = some ⟨snp, off, d, true⟩) :
    ∃ F' resp, (Input.req r).run F = (.ok ⟨⟩, F') ∧ Installed F F' snp ∧
      arrivals F'.trace = arrivals F.trace ++ [.saveSnpData snp off d, .applySnp snp] ∧
      answers F'.trace = answers F.trace ++ [resp] ∧
      resp.type = .snpResp ∧ resp.term = t ∧ resp.src = j ∧ resp.accepted = true ∧ resp.nextIdx = off + d.length := by
  obtain ⟨F1, c1, c2, ⟨c3, c4, c5⟩, c6⟩ := run_snpReq h hr ht he hs rfl
  have ht : Taking { F1 with trace := F1.trace ++ [.saveSnpData snp off d] } j t snp :=
    ⟨c1.id, c1.term, c1.role, c1.joined, c1.behind, c1.start, c1.self, c1.member, c1.compact, c1.apply⟩
  obtain ⟨F2, d1, ⟨i1, i2, i3, i4⟩, d3, d4⟩ := run_installSnapshot ht
  have h1 : handleSnapshotSync ⟨snp, off, d, true⟩ F1 = (.ok true, F2) := by
    unfold handleSnapshotSync
    rw [bind_emit, if_pos rfl, bind_get, if_neg (fun h => h c2)]
    exact d1
  refine ⟨_, snpAck t j r.src (off + d.length), c6 _ h1, ⟨i1, i2, i3.trans (congrArg (fun l : Log => l.compact snp.lastIdx) c3), i4⟩, ?_, ?_, rfl, rfl, rfl, rfl, rfl⟩
  · show arrivals (F2.trace ++ [_]) = _
    rw [arrivals_append, d3]
    show arrivals (F1.trace ++ _) ++ _ ++ _ = _
    rw [arrivals_append, c4, List.append_assoc, List.append_assoc]
    rfl
  · show answers (F2.trace ++ [_]) = _
    rw [answers_append, d4]
    show answers (F1.trace ++ _) ++ _ = _
    rw [answers_append, c5]
    exact congrArg (· ++ _) (List.append_nil _)

/-! ## C48 -/

/-- From the block at offset `off` on. -/
theorem transfer_from {bytes : List Byte} {snp : Snap} {j : Int} {tl : Nat} (h0 : 0 < snp.lastIdx) :
    ∀ (n off : Nat) (L F : Srv), bytes.length - off ≤ n → off < bytes.length →
      Sending L j snp bytes off true → Taking F j L.term snp →
      snp.lastIdx < L.log.next → L.log.start ≤ snp.lastIdx + 1 → termFor L snp.lastIdx = some tl →
      ∃ fx L' F' blocks p, Transfer L F (blockReq L j snp bytes off) fx L' F' ∧
        arrivals fx = blocks.map (fun b => .saveSnpData snp b.1 b.2) ++ [.applySnp snp] ∧
        Cut (blockSize L.params).toNat off (bytes.drop off) blocks ∧
        Installed F F' snp ∧
        L'.findPeer j = some p ∧ p.nextIdx = snp.lastIdx + 1 ∧ p.matched = snp.lastIdx ∧ p.snpCtx = none := by
  intro n
  induction n with
  | zero => intro off L F h1 h2; omega
  | succ n ih =>
    intro off L F h1 h2 hS hT hn hs ht
    have hb := hS.block
    have hS0 := hS.emit []
    have hT0 : Taking { F with trace := [] } j L.term snp :=
      ⟨hT.id, hT.term, hT.role, hT.joined, hT.behind, hT.start, hT.self, hT.member, hT.compact, hT.apply⟩
    have hlen : ((bytes.drop off).take (blockSize L.params).toNat).length =
        min (blockSize L.params).toNat (bytes.length - off) := by
      rw [List.length_take, List.length_drop]
    have hne : (bytes.drop off).take (blockSize L.params).toNat ≠ [] := by
      intro h
      rw [h] at hlen
      have : ([] : List Byte).length = 0 := rfl
      omega
    by_cases hl : bytes.length ≤ off + (blockSize L.params).toNat
    · obtain ⟨F', resp, c1, c2, c3, c4, r1, r2, r3, r4, r5⟩ := run_lastBlock (r := blockReq L j snp bytes off) hT0 rfl rfl rfl
        (by unfold blockReq; rw [decide_eq_true hl])
      obtain ⟨L', p, e1, e2, e3, e4, e5, qs, e6, e7⟩ := run_lastAck (r := resp) hS0 ⟨r1, r2, r3⟩ r4 (by rw [r5]; omega) h0 hn hs ht
      have hq : sends L'.trace = qs := by
        rw [e6]
        show sends (qs.map Eff.send) = qs
        unfold sends
        rw [List.filterMap_map]
        exact List.filterMap_some
      refine ⟨F'.trace, L', F', [(off, (bytes.drop off).take (blockSize L.params).toNat)], p,
        .last (qs := sends L'.trace) (.mk c1 c4 e1) ?_, c3, ⟨rfl, hne, by omega, [], ?_, rfl⟩, ⟨c2.commit, c2.quick, c2.log, c2.config⟩,
        e2, e3, e4, e5⟩
      · intro q hq'
        rw [hq] at hq'
        rw [(e7 q hq').1]
        intro h; cases h
      · rw [List.append_nil, List.take_of_length_le]
        rw [List.length_drop]; omega
    · obtain ⟨F1, resp, c1, c2, c3, c4, c5, r1, r2, r3, r4, r5⟩ := run_block (r := blockReq L j snp bytes off) hT0 rfl rfl rfl
        (by unfold blockReq; rw [decide_eq_false hl])
      obtain ⟨L1, e1, e2, e3, e4⟩ := run_ack (r := resp) hS0 ⟨r1, r2, r3⟩ r4
        (r5.trans (by rw [hlen, Nat.min_eq_left (by omega)] : _ = off + (blockSize L.params).toNat)) (by omega)
      obtain ⟨fx, L', F', blocks, p, g1, g2, g3, g4, g5⟩ := ih (off + (blockSize L.params).toNat) L1 F1 (by omega) (by omega)
        e2 (by rw [e3.term]; exact c2)
        (by rw [e3.log]; exact hn) (by rw [e3.log]; exact hs)
        (by unfold termFor at ht ⊢; rw [e3.log, e3.smSnap]; exact ht)
      refine ⟨F1.trace ++ fx, L', F', (off, (bytes.drop off).take (blockSize L.params).toNat) :: blocks, p,
        .more (q1 := blockReq L1 j snp bytes (off + (blockSize L.params).toNat)) ?_ rfl g1, ?_, ?_,
        ⟨g4.commit, g4.quick, g4.log.trans (by rw [c3]), g4.config⟩, g5⟩
      · have : sends L1.trace = [blockReq L1 j snp bytes (off + (blockSize L.params).toNat)] := by
          rw [e4, e3.block]
          rfl
        rw [← this]
        exact .mk c1 c5 e1
      · rw [arrivals_append, c4, g2]
        rfl
      · refine ⟨rfl, hne, by omega, bytes.drop (off + (blockSize L.params).toNat), ?_, ?_⟩
        · rw [← List.drop_drop, List.take_append_drop]
        · rw [hlen, Nat.min_eq_left (by omega)]
          have := g3
          rw [e3.params] at this
          exact this

/-- The leader before the first block is sent. -/
structure Offering (L : Srv) (j : Int) (snp : Snap) (bytes : List Byte) : Prop where
  lead : L.role = .leader
  peer : ∃ p, L.findPeer j = some p ∧ p.snpCtx = none ∧ p.busy = false ∧ 1 < p.nextIdx ∧ p.nextIdx < L.log.start
  latest : L.lastSnap = some snp
  covers : L.log.start ≤ snp.lastIdx + 1
  size : snp.size = bytes.length
  nonempty : 0 < bytes.length
  small : bytes.length < 2 ^ 31
  read : ∀ o n, o + n ≤ bytes.length → L.env.readRet snp o n = n ∧ L.env.readPos snp o n = 0 ∧
    L.env.readSnp snp o n = (bytes.drop o).take n
  block : 0 < blockSize L.params

theorem find_self {L : Srv} {j : Int} {p : Peer} (h : L.findPeer j = some p) : p.id = j := by
  have := List.find?_some h
  simpa using this

/-- `L` and `L'` are the same but for the peers. -/
def SameP (L L' : Srv) : Prop := ∃ ps j, L' = { L with peers := ps, srvToJoin := j }

theorem SameP.refl (L : Srv) : SameP L L := ⟨L.peers, L.srvToJoin, rfl⟩
theorem SameP.setPeer {L L' : Srv} (h : SameP L L') (r : PeerRef) (f : Peer → Peer) : SameP L (L'.setPeer r f) := by
  obtain ⟨ps, j, rfl⟩ := h
  cases r
  · exact ⟨_, j, rfl⟩
  · exact ⟨ps, _, rfl⟩
theorem SameP.same {L L' : Srv} (h : SameP L L') : SameL L L' := by
  obtain ⟨ps, j, rfl⟩ := h
  exact ⟨rfl, rfl, rfl, rfl, rfl, rfl⟩

theorem Offering.sending {L L' : Srv} {j : Int} {snp : Snap} {bytes : List Byte} (h : Offering L j snp bytes)
    (hs : SameP L L') {p : Peer} {b : Bool} (hp : L'.findPeer j = some p) (hc : p.snpCtx = some (snp, 0)) (hb : p.busy = b)
    (hn : 1 < p.nextIdx ∧ p.nextIdx < L.log.start) : Sending L' j snp bytes 0 b := by
  have hl := h.latest
  obtain ⟨ps, x, rfl⟩ := hs
  exact ⟨h.lead, ⟨p, hp, hc, hb, hn.1, hn.2⟩, fun l hl' => by
    have : some l = some snp := hl'.symm.trans hl
    cases this; exact Nat.le_refl _, h.size, h.small, h.read, h.block⟩

/-- The first block. -/
theorem run_first {L : Srv} {j : Int} {snp : Snap} {bytes : List Byte} (h : Offering L j snp bytes) :
    ∃ L', (Input.hbTimeout j).run L = (.ok ⟨⟩, L') ∧ Sending L' j snp bytes 0 true ∧ SameL L L' ∧
      L'.trace = L.trace ++ [.send (blockReq L j snp bytes 0)] := by
  obtain ⟨p, hp, hc, hb, hn1, hn2⟩ := h.peer
  have hcov := h.covers
  have hrun : (Input.hbTimeout j).run L = handleHbTimeout (.member j) L := rfl
  rw [hrun]
  unfold handleHbTimeout
  rw [bind_modPeer, bind_get]
  have f1 : (L.setPeer (.member j) fun p => { p with hbArmed := false }).findPeer j = some { p with hbArmed := false } := by
    rw [find_setPeer _ _ _ (by intro p; rfl), hp]; rfl
  have e1 := (SameP.refl L).setPeer (.member j) fun p => { p with hbArmed := false }
  have l1 : (L.setPeer (.member j) fun p => { p with hbArmed := false }).role = .leader := h.lead
  generalize (L.setPeer (.member j) fun p => { p with hbArmed := false }) = L1 at f1 e1 l1
  rw [if_pos l1]
  have hreq : ∃ L2 p2, requestAppend (.member j) L1 = (.ok true, { L2 with
        trace := L2.trace ++ [.send (blockReq L j snp bytes 0)] }) ∧ SameP L L2 ∧ L2.findPeer j = some p2 ∧
      p2.snpCtx = some (snp, 0) ∧ p2.busy = true ∧ p2.nextIdx = p.nextIdx := by
    unfold requestAppend
    rw [run_bind_ok (getPeer_some (show L1.peer (.member j) = some _ from f1)), if_neg (by show ¬p.busy = true; rw [hb]; simp),
      bind_modPeer]
    have f2 : (L1.setPeer (.member j) fun p => { p with busy := true }).findPeer j =
        some { p with hbArmed := false, busy := true } := by
      rw [find_setPeer _ _ _ (by intro p; rfl), f1]; rfl
    have e2 := e1.setPeer (.member j) fun p => { p with busy := true }
    generalize (L1.setPeer (.member j) fun p => { p with busy := true }) = L2 at f2 e2
    have hcr : ∃ L3 p3, createAppendReq (.member j) L2 = (.ok (blockReq L j snp bytes 0), L3) ∧ SameP L L3 ∧
        L3.findPeer j = some p3 ∧ p3.snpCtx = some (snp, 0) ∧ p3.busy = true ∧ p3.nextIdx = p.nextIdx := by
      unfold createAppendReq
      rw [bind_get, bind_modPeer]
      have f3 : (L2.setPeer (.member j) fun p => if p.nextIdx = 0 then { p with nextIdx := L2.log.next } else p).findPeer j =
          some { p with hbArmed := false, busy := true } := by
        rw [find_setPeer _ _ _ (by intro p; split <;> rfl), f2]
        show some (if p.nextIdx = 0 then _ else _) = _
        rw [if_neg (by omega)]
      have e3 := e2.setPeer (.member j) fun p => if p.nextIdx = 0 then { p with nextIdx := L2.log.next } else p
      have q2 := e2.same
      rw [run_bind_ok (getPeer_some (r := .member j) f3), if_neg (by show ¬(L2.log.next ≤ p.nextIdx - 1); rw [q2.log]; unfold Log.next; omega),
        if_pos (by show 0 < p.nextIdx - 1 ∧ p.nextIdx - 1 < L2.log.start - 1; rw [q2.log]; omega), q2.term, q2.commit]
      generalize (L2.setPeer (.member j) fun p => if p.nextIdx = 0 then { p with nextIdx := L2.log.next } else p) = L3 at f3 e3
      have h1 : chooseSnap (.member j) (p.nextIdx - 1) L3 =
          (.ok ⟨⟩, L3.setPeer (.member j) fun p => { p with snpCtx := some (snp, 0) }) := by
        have hl : L3.lastSnap = some snp := by obtain ⟨ps, x, rfl⟩ := e3; exact h.latest
        unfold chooseSnap
        rw [bind_get, run_bind_ok (getPeer_some (r := .member j) f3)]
        show (if (match p.snpCtx with
          | none => true
          | some (snp, _) => match L3.lastSnap with
            | some l => decide (snp.lastIdx < l.lastIdx)
            | none => false) = true then _ else _ : R Unit) L3 = _
        rw [hc, if_pos rfl, hl]
        show (if snp.lastIdx < p.nextIdx - 1 then _ else if snp.size < 1 then _ else _ : R Unit) L3 = _
        have := h.nonempty
        rw [if_neg (by omega), if_neg (by rw [h.size]; omega)]
        rfl
      have f4 : (L3.setPeer (.member j) fun p => { p with snpCtx := some (snp, 0) }).findPeer j =
          some { p with hbArmed := false, busy := true, snpCtx := some (snp, 0) } := by
        rw [find_setPeer _ _ _ (by intro p; rfl), f3]; rfl
      have e4 := e3.setPeer (.member j) fun p => { p with snpCtx := some (snp, 0) }
      generalize (L3.setPeer (.member j) fun p => { p with snpCtx := some (snp, 0) }) = L4 at h1 f4 e4
      have h2 := h.sending e4 f4 rfl rfl ⟨hn1, hn2⟩
      have h3 := run_createSync h2 h.nonempty (p.nextIdx - 1)
      have q4 := e4.same
      rw [q4.term, q4.commit, q4.block] at h3
      have h4 : createSyncSnapshotReq (.member j) (p.nextIdx - 1) L.term L.quickCommit L3 =
          createSyncSnapshotReq (.member j) (p.nextIdx - 1) L.term L.quickCommit L4 := by
        have h5 : chooseSnap (.member j) (p.nextIdx - 1) L4 = (.ok ⟨⟩, L4) := by
          unfold chooseSnap
          rw [bind_get, run_bind_ok (getPeer_some (r := .member j) f4), if_neg]
          · rfl
          · have hl : L4.lastSnap = some snp := by obtain ⟨ps, x, rfl⟩ := e4; exact h.latest
            rw [hl]
            simp
        unfold createSyncSnapshotReq
        rw [run_bind_ok h1, run_bind_ok h5]
      exact ⟨L4, _, h4.trans h3, e4, f4, rfl, rfl, rfl⟩
    obtain ⟨L3, p3, g1, g2⟩ := hcr
    rw [run_bind_ok g1, bind_emit]
    exact ⟨L3, p3, rfl, g2⟩
  obtain ⟨L2, p2, g1, g2, g3, g4, g5, g6⟩ := hreq
  rw [run_bind_ok g1]
  have f3 : (L2.setPeer (.member j) fun p => if p.hbEnabled then { p with hbArmed := true } else p).findPeer j =
      some (if p2.hbEnabled then { p2 with hbArmed := true } else p2) := by
    rw [find_setPeer _ _ _ (by intro p; split <;> rfl), g3]; rfl
  have e3 := g2.setPeer (.member j) fun p => if p.hbEnabled then { p with hbArmed := true } else p
  have hk : ∀ P : Peer → Prop, P p2 → P { p2 with hbArmed := true } →
      P (if p2.hbEnabled then { p2 with hbArmed := true } else p2) := by
    intro P h1 h2; split <;> assumption
  have hS := h.sending e3 f3 (hk (·.snpCtx = some (snp, 0)) g4 g4) (hk (·.busy = true) g5 g5)
    (hk (fun q => 1 < q.nextIdx ∧ q.nextIdx < L.log.start) (by omega) (by show 1 < p2.nextIdx ∧ p2.nextIdx < L.log.start; omega))
  refine ⟨_, rfl, hS.emit _, e3.same.trans ⟨rfl, rfl, rfl, rfl, rfl, rfl⟩, ?_⟩
  have : L2.trace = L.trace := by obtain ⟨ps, x, rfl⟩ := g2; rfl
  show L2.trace ++ _ = _
  rw [this]

theorem Cut.join {b : Nat} : ∀ {blocks : List (Nat × List Byte)} {off : Nat} {bytes : List Byte}, Cut b off bytes blocks →
    blocks.flatMap (·.2) = bytes
  | [], _, _, h => h.symm
  | (o, d) :: rest, off, bytes, h => by
    obtain ⟨_, _, _, tail, h1, h2⟩ := h
    rw [h1, List.flatMap_cons, h2.join]

/-- C48, for snapshots of less than 2^31 bytes: when the heartbeat for a member that is behind the log of the leader is due,
and the state machine of the leader reads the snapshot as it is asked to (C104), the leader starts with a block at offset 0; when the messages
arrive, the state machine of the member is given blocks that cut the bytes of the snapshot, in order, and then it is told once
to apply the snapshot. The leader goes on behind the snapshot then.

Missing: larger snapshots (`snapshot_too_large_throws`), lost messages (`lost_ack_resends_forever`), and snapshots the leader
has made itself since it was started (`own_snapshot_kills_leader`). -/
theorem snapshot_transferred_partial {L F : Srv} {j : Int} {snp : Snap} {bytes : List Byte} {t : Nat}
    (hL : Offering L j snp bytes) (hF : Taking F j L.term snp) (hn : snp.lastIdx < L.log.next)
    (ht : termFor L snp.lastIdx = some t) :
    ∃ L0 q fx L' F' blocks p, (Input.hbTimeout j).run { L with trace := [] } = (.ok ⟨⟩, L0) ∧ sends L0.trace = [q] ∧
      Transfer L0 F q fx L' F' ∧
      arrivals fx = blocks.map (fun b => .saveSnpData snp b.1 b.2) ++ [.applySnp snp] ∧
      Cut (blockSize L.params).toNat 0 bytes blocks ∧
      Installed F F' snp ∧
      L'.findPeer j = some p ∧ p.nextIdx = snp.lastIdx + 1 ∧ p.matched = snp.lastIdx ∧ p.snpCtx = none := by
  have hL0 : Offering { L with trace := [] } j snp bytes :=
    ⟨hL.lead, hL.peer, hL.latest, hL.covers, hL.size, hL.nonempty, hL.small, hL.read, hL.block⟩
  obtain ⟨L0, h1, h2, h3, h4⟩ := run_first hL0
  obtain ⟨fx, L', F', blocks, p, g1, g2, g3, g4⟩ := transfer_from (tl := t) (Nat.lt_of_le_of_lt (Nat.zero_le _) hF.behind)
    bytes.length 0 L0 F (Nat.le_refl _) hL.nonempty h2 (by rw [h3.term]; exact hF) (by rw [h3.log]; exact hn)
    (by rw [h3.log]; exact hL.covers) (by unfold termFor at ht ⊢; rw [h3.log, h3.smSnap]; exact ht)
  rw [h3.block] at g1
  rw [h3.params] at g3
  exact ⟨L0, _, fx, L', F', blocks, p, h1, by rw [h4]; rfl, g1, g2, g3, g4⟩

/-- A state machine whose snapshots are made of the bytes 0, 1, .., 9. -/
def tenBytes : Env :=
  ⟨fun _ o n => ((List.range 10).map (BitVec.ofNat 8)).drop o |>.take n, fun _ _ n => n, fun _ _ _ => 0, fun _ => true,
    fun _ => true, fun _ => 10⟩
/-- The snapshot that is sent. -/
def tenSnap : Snap := ⟨10, 5, ⟨1, 0, conf3.servers⟩, 10⟩
/-- A leader that sends blocks of four bytes to server 2. -/
def tenLeader : Srv :=
  { id := 1, config := conf3, term := 5, role := .leader, log := ⟨9, [⟨5, .app 1⟩, ⟨5, .app 2⟩, ⟨5, .app 3⟩]⟩, env := tenBytes,
    smSnap := some tenSnap, lastSnap := some tenSnap, params := { snpBlock := 4 },
    peers := [{ cfg := ⟨2, 2⟩, nextIdx := 3, hbInterval := 75 }] }
/-- The member. -/
def tenFollower : Srv := { id := 2, config := conf3, term := 5, log := ⟨1, [⟨1, .app 1⟩, ⟨1, .app 2⟩]⟩ }

/-- The hypotheses of the theorem can be met. -/
example : Offering tenLeader 2 tenSnap ((List.range 10).map (BitVec.ofNat 8)) ∧ Taking tenFollower 2 tenLeader.term tenSnap ∧
    tenSnap.lastIdx < tenLeader.log.next ∧ termFor tenLeader tenSnap.lastIdx = some 5 :=
  ⟨⟨rfl, ⟨_, rfl, rfl, rfl, by decide, by decide⟩, rfl, by decide, by decide, by decide, by decide, fun _ _ _ => ⟨rfl, rfl, rfl⟩, by decide⟩,
   ⟨rfl, by decide, by decide, rfl, by decide, by decide, by decide, by decide, rfl, rfl⟩, by decide, by decide⟩

/-- What a heartbeat does when the last request has been answered. -/
theorem hb_request {L : Srv} {j : Int} {p : Peer} (hl : L.role = .leader) (hp : L.findPeer j = some p) (hb : p.busy = false) :
    ∃ L2, SameP L L2 ∧ L2.findPeer j = some { p with hbArmed := false, busy := true } ∧
      ∀ e L4, createAppendReq (.member j) L2 = (.error e, L4) → (Input.hbTimeout j).run L = (.error e, L4) := by
  have hrun : (Input.hbTimeout j).run L = handleHbTimeout (.member j) L := rfl
  rw [hrun]
  unfold handleHbTimeout
  rw [bind_modPeer, bind_get]
  have f1 : (L.setPeer (.member j) fun p => { p with hbArmed := false }).findPeer j = some { p with hbArmed := false } := by
    rw [find_setPeer _ _ _ (by intro p; rfl), hp]; rfl
  have e1 := (SameP.refl L).setPeer (.member j) fun p => { p with hbArmed := false }
  have l1 : (L.setPeer (.member j) fun p => { p with hbArmed := false }).role = .leader := hl
  generalize (L.setPeer (.member j) fun p => { p with hbArmed := false }) = L1 at f1 e1 l1
  rw [if_pos l1]
  have f2 : (L1.setPeer (.member j) fun p => { p with busy := true }).findPeer j =
      some { p with hbArmed := false, busy := true } := by
    rw [find_setPeer _ _ _ (by intro p; rfl), f1]; rfl
  refine ⟨_, e1.setPeer (.member j) fun p => { p with busy := true }, f2, fun e L4 h => ?_⟩
  have hr : requestAppend (.member j) L1 = (.error e, L4) := by
    unfold requestAppend
    rw [run_bind_ok (getPeer_some (show L1.peer (.member j) = some _ from f1)), if_neg (by show ¬p.busy = true; rw [hb]; simp),
      bind_modPeer, run_bind_err h]
  rw [run_bind_err hr]

/-! ## C56 -/

/-- C56, negative: a leader whose latest snapshot is one it has made itself (its size is 0, see `one_snapshot_at_a_time`) shuts
down when a member needs entries that have been compacted away. -/
theorem own_snapshot_kills_leader {L : Srv} {j : Int} {p : Peer} {snp : Snap} (hl : L.role = .leader)
    (hp : L.findPeer j = some p) (hb : p.busy = false) (hc : p.snpCtx = none) (h1 : 1 < p.nextIdx)
    (h2 : p.nextIdx < L.log.start) (hs : L.lastSnap = some snp) (h0 : snp.size = 0) :
    ((Input.hbTimeout j).run L).1 = .error (.exit (-1)) := by
  obtain ⟨L2, e2, f2, hrun⟩ := hb_request hl hp hb
  have q2 := e2.same
  have hcr : ∃ L4, createAppendReq (.member j) L2 = (.error (.exit (-1)), L4) := by
    unfold createAppendReq
    rw [bind_get, bind_modPeer]
    have f3 : (L2.setPeer (.member j) fun p => if p.nextIdx = 0 then { p with nextIdx := L2.log.next } else p).findPeer j =
        some { p with hbArmed := false, busy := true } := by
      rw [find_setPeer _ _ _ (by intro p; split <;> rfl), f2]
      show some (if p.nextIdx = 0 then _ else _) = _
      rw [if_neg (by omega)]
    have e3 := e2.setPeer (.member j) fun p => if p.nextIdx = 0 then { p with nextIdx := L2.log.next } else p
    rw [run_bind_ok (getPeer_some (r := .member j) f3),
      if_neg (by show ¬(L2.log.next ≤ p.nextIdx - 1); rw [q2.log]; unfold Log.next; omega),
      if_pos (by show 0 < p.nextIdx - 1 ∧ p.nextIdx - 1 < L2.log.start - 1; rw [q2.log]; omega)]
    generalize (L2.setPeer (.member j) fun p => if p.nextIdx = 0 then { p with nextIdx := L2.log.next } else p) = L3 at f3 e3
    have h1 : ∃ L4, chooseSnap (.member j) (p.nextIdx - 1) L3 = (.error (.exit (-1)), L4) := by
      have hl : L3.lastSnap = some snp := by obtain ⟨ps, x, rfl⟩ := e3; exact hs
      unfold chooseSnap
      rw [bind_get, run_bind_ok (getPeer_some (r := .member j) f3)]
      show ∃ L4, (if (match p.snpCtx with
        | none => true
        | some (snp, _) => match L3.lastSnap with
          | some l => decide (snp.lastIdx < l.lastIdx)
          | none => false) = true then _ else _ : R Unit) L3 = (.error (.exit (-1)), L4)
      rw [hc, if_pos rfl, hl]
      show ∃ L4, (if snp.lastIdx < p.nextIdx - 1 then _ else if snp.size < 1 then _ else _ : R Unit) L3 = (.error (.exit (-1)), L4)
      by_cases h : snp.lastIdx < p.nextIdx - 1
      · rw [if_pos h]; exact ⟨_, rfl⟩
      · rw [if_neg h, if_pos (by omega)]; exact ⟨_, rfl⟩
    obtain ⟨L4, h1⟩ := h1
    unfold createSyncSnapshotReq
    rw [run_bind_err h1]
    exact ⟨_, rfl⟩
  obtain ⟨L4, h⟩ := hcr
  rw [hrun _ _ h]

/-- A setup that makes a snapshot every two entries and keeps one entry. -/
def ownNode : Setup := { id := 1, params := { snpDistance := 2, reserved := 1 } }
/-- The append request to server `j` failed. -/
def failTo (j : Int) : Input :=
  .peerErr { type := .appendReq, term := 1, src := 1, dst := j, lastTerm := 0, lastIdx := 0, commitIdx := 0 }

/-- C56 fails in a history: server 1 is elected and commits three entries with server 2 while server 3 cannot be reached; it
makes a snapshot, and shuts down with the next heartbeat for server 3. -/
theorem own_snapshot_history : ∃ d s fx, Hist ownNode (Node.fresh conf3)
      [.electionTimeout, voteRespOf 2 1 true, appendRespOf 2 1 2, appendRespOf 3 1 2, .apply, cliReq 7, cliReq 8, cliReq 9,
       appendRespOf 2 1 5, .apply, .apply, .apply, .snapDone ⟨3, 1, ⟨1, 0, conf3.servers⟩, 0⟩ true, failTo 3] fx ⟨d, some s⟩ ∧
    s.role = .leader ∧ ((Input.hbTimeout 3).run s).1 = .error (.exit (-1)) := by
  obtain ⟨⟨d, up⟩, fx, h, hp⟩ := Node.witness (c := ownNode) (n := Node.fresh conf3)
    [.start, .go .electionTimeout, .go (voteRespOf 2 1 true), .go (appendRespOf 2 1 2), .go (appendRespOf 3 1 2), .go .apply,
     .go (cliReq 7), .go (cliReq 8), .go (cliReq 9), .go (appendRespOf 2 1 5), .go .apply, .go .apply, .go .apply,
     .go (.snapDone ⟨3, 1, ⟨1, 0, conf3.servers⟩, 0⟩ true), .go (failTo 3)]
    (fun n _ => match n.up with
      | some s => decide (s.role = .leader ∧ ((Input.hbTimeout 3).run s).1 = .error (.exit (-1)))
      | none => false) (by decide +kernel)
  cases up with
  | none => cases hp
  | some s => exact ⟨d, s, fx, h, of_decide_eq_true hp⟩

/-! ## Large snapshots -/

theorem bmod_upper {x m : Nat} (h1 : (m + 1) / 2 ≤ x) (h2 : x < m) : Int.bmod x m < 0 := by
  unfold Int.bmod
  have h6 : (x : Int) % (m : Int) = x := Int.emod_eq_of_lt (by omega) (by omega)
  rw [h6]
  show (if (x : Int) < ((m : Int) + 1) / 2 then _ else _) < (0 : Int)
  rw [if_neg (by omega)]
  omega

/-- C48 fails for a snapshot of 2^31 up to 2^32 - 1 bytes: the heartbeat that should send the first block ends by an
exception, nothing is sent, and the member counts as busy from then on. -/
theorem snapshot_too_large_throws {L : Srv} {j : Int} {p : Peer} {snp : Snap} (hl : L.role = .leader)
    (hp : L.findPeer j = some p) (hb : p.busy = false) (hc : p.snpCtx = none) (h1 : 1 < p.nextIdx)
    (h2 : p.nextIdx < L.log.start) (hs : L.lastSnap = some snp) (hcov : L.log.start ≤ snp.lastIdx + 1)
    (h3 : 2 ^ 31 ≤ snp.size) (h4 : snp.size < 2 ^ 32) :
    ∃ L' p', (Input.hbTimeout j).run L = (.error .thrown, L') ∧ L'.trace = L.trace ∧ L'.findPeer j = some p' ∧
      p'.busy = true ∧ p'.hbArmed = false := by
  obtain ⟨L2, e2, f2, hrun⟩ := hb_request hl hp hb
  have q2 := e2.same
  have hcr : ∃ L4, createAppendReq (.member j) L2 = (.error .thrown, L4) ∧ SameP L L4 ∧
      L4.findPeer j = some { p with hbArmed := false, busy := true, snpCtx := some (snp, 0) } := by
    unfold createAppendReq
    rw [bind_get, bind_modPeer]
    have f3 : (L2.setPeer (.member j) fun p => if p.nextIdx = 0 then { p with nextIdx := L2.log.next } else p).findPeer j =
        some { p with hbArmed := false, busy := true } := by
      rw [find_setPeer _ _ _ (by intro p; split <;> rfl), f2]
      show some (if p.nextIdx = 0 then _ else _) = _
      rw [if_neg (by omega)]
    have e3 := e2.setPeer (.member j) fun p => if p.nextIdx = 0 then { p with nextIdx := L2.log.next } else p
    rw [run_bind_ok (getPeer_some (r := .member j) f3),
      if_neg (by show ¬(L2.log.next ≤ p.nextIdx - 1); rw [q2.log]; unfold Log.next; omega),
      if_pos (by show 0 < p.nextIdx - 1 ∧ p.nextIdx - 1 < L2.log.start - 1; rw [q2.log]; omega)]
    generalize (L2.setPeer (.member j) fun p => if p.nextIdx = 0 then { p with nextIdx := L2.log.next } else p) = L3 at f3 e3
    have h1 : chooseSnap (.member j) (p.nextIdx - 1) L3 =
        (.ok ⟨⟩, L3.setPeer (.member j) fun p => { p with snpCtx := some (snp, 0) }) := by
      have hl : L3.lastSnap = some snp := by obtain ⟨ps, x, rfl⟩ := e3; exact hs
      unfold chooseSnap
      rw [bind_get, run_bind_ok (getPeer_some (r := .member j) f3)]
      show (if (match p.snpCtx with
        | none => true
        | some (snp, _) => match L3.lastSnap with
          | some l => decide (snp.lastIdx < l.lastIdx)
          | none => false) = true then _ else _ : R Unit) L3 = _
      rw [hc, if_pos rfl, hl]
      show (if snp.lastIdx < p.nextIdx - 1 then _ else if snp.size < 1 then _ else _ : R Unit) L3 = _
      rw [if_neg (by omega), if_neg (by omega)]
      rfl
    have f4 : (L3.setPeer (.member j) fun p => { p with snpCtx := some (snp, 0) }).findPeer j =
        some { p with hbArmed := false, busy := true, snpCtx := some (snp, 0) } := by
      rw [find_setPeer _ _ _ (by intro p; rfl), f3]; rfl
    have e4 := e3.setPeer (.member j) fun p => { p with snpCtx := some (snp, 0) }
    generalize (L3.setPeer (.member j) fun p => { p with snpCtx := some (snp, 0) }) = L4 at h1 f4 e4
    refine ⟨L4, ?_, e4, f4⟩
    unfold createSyncSnapshotReq
    rw [run_bind_ok h1, bind_get, run_bind_ok (getPeer_some (r := .member j) f4)]
    have h5 : toI32 (subU64 snp.size 0) < 0 := by
      have : subU64 snp.size 0 = snp.size := by unfold subU64; omega
      rw [this]
      unfold toI32
      rw [BitVec.toInt_ofInt]
      exact bmod_upper (by omega) (by omega)
    show (if min (blockSize L4.params) (toI32 (subU64 snp.size 0)) < 0 then _ else _ : R Req) L4 = _
    rw [if_pos (by omega)]
    rfl
  obtain ⟨L4, h, hs, hf⟩ := hcr
  refine ⟨L4, _, hrun _ _ h, ?_, hf, rfl, rfl⟩
  obtain ⟨ps, x, rfl⟩ := hs
  rfl

/-- The hypotheses can be met. -/
example : ∃ L' p', (Input.hbTimeout 2).run { tenLeader with lastSnap := some { tenSnap with size := 3000000000 } } =
      (.error .thrown, L') ∧ L'.trace = [] ∧ L'.findPeer 2 = some p' ∧ p'.busy = true ∧ p'.hbArmed = false :=
  snapshot_too_large_throws (L := { tenLeader with lastSnap := some { tenSnap with size := 3000000000 } }) rfl rfl rfl rfl
    (by decide) (by decide) rfl (by decide) (by decide) (by decide)

/-! ## C60 -/

/-- C60, negative: once the leader has compacted its log, it cannot bring up a member whose log is empty: the heartbeat for it
ends by an exception, no request is sent, and the heartbeat task is not scheduled again; the member counts as busy from then
on, so no other request is sent to it either. -/
theorem empty_member_left_behind {L : Srv} {j : Int} {p : Peer} (hl : L.role = .leader) (hp : L.findPeer j = some p)
    (hb : p.busy = false) (h1 : p.nextIdx = 1) (h2 : 1 < L.log.start) :
    ∃ L' p', (Input.hbTimeout j).run L = (.error .thrown, L') ∧ L'.trace = L.trace ∧ L'.findPeer j = some p' ∧
      p'.busy = true ∧ p'.hbArmed = false := by
  obtain ⟨L2, e2, f2, hrun⟩ := hb_request hl hp hb
  have q2 := e2.same
  have hcr : ∃ L4, createAppendReq (.member j) L2 = (.error .thrown, L4) ∧ SameP L L4 ∧
      L4.findPeer j = some { p with hbArmed := false, busy := true } := by
    unfold createAppendReq
    rw [bind_get, bind_modPeer]
    have f3 : (L2.setPeer (.member j) fun p => if p.nextIdx = 0 then { p with nextIdx := L2.log.next } else p).findPeer j =
        some { p with hbArmed := false, busy := true } := by
      rw [find_setPeer _ _ _ (by intro p; split <;> rfl), f2]
      show some (if p.nextIdx = 0 then _ else _) = _
      rw [if_neg (by omega)]
    have e3 := e2.setPeer (.member j) fun p => if p.nextIdx = 0 then { p with nextIdx := L2.log.next } else p
    have q3 := e3.same
    rw [run_bind_ok (getPeer_some (r := .member j) f3),
      if_neg (by show ¬(L2.log.next ≤ p.nextIdx - 1); rw [q2.log]; unfold Log.next; omega),
      if_neg (by show ¬(0 < p.nextIdx - 1 ∧ p.nextIdx - 1 < L2.log.start - 1); omega)]
    generalize (L2.setPeer (.member j) fun p => if p.nextIdx = 0 then { p with nextIdx := L2.log.next } else p) = L3
      at f3 e3 q3
    refine ⟨L3, ?_, e3, f3⟩
    show appendReqFrom (.member j) (p.nextIdx - 1) L3 = _
    rw [h1]
    unfold appendReqFrom
    rw [run_bind_ok (termForLog_some (i := 0) rfl), run_bind_err (entriesFrom_err (by
      rw [q3.log]; unfold Log.next; omega))]
  obtain ⟨L4, h, hs, hf⟩ := hcr
  refine ⟨L4, _, hrun _ _ h, ?_, hf, rfl, rfl⟩
  obtain ⟨ps, x, rfl⟩ := hs
  rfl

/-- The hypotheses can be met. -/
example : ∃ L' p', (Input.hbTimeout 2).run { tenLeader with peers := [{ cfg := ⟨2, 2⟩, nextIdx := 1, hbInterval := 75 }] } =
      (.error .thrown, L') ∧ L'.trace = [] ∧ L'.findPeer 2 = some p' ∧ p'.busy = true ∧ p'.hbArmed = false :=
  empty_member_left_behind (L := { tenLeader with peers := [{ cfg := ⟨2, 2⟩, nextIdx := 1, hbInterval := 75 }] }) rfl rfl rfl
    rfl (by decide)

/-- A member that counts as busy gets no request with a heartbeat. -/
theorem busy_member_gets_nothing {L : Srv} {j : Int} {p : Peer} (hp : L.findPeer j = some p) (hb : p.busy = true) :
    requestAppend (.member j) L = (.ok false, L) := by
  unfold requestAppend
  rw [run_bind_ok (getPeer_some (r := .member j) hp), if_pos hb]
  rfl

/-! ## C61 -/

/-- `n` requests, each one the answer to the reply to the one before. -/
inductive Trips : Nat → Srv → Srv → Req → List Eff → Srv → Srv → Prop
  | nil {L F : Srv} {q : Req} : Trips 0 L F q [] L F
  | cons {n : Nat} {L F L1 F1 L' F' : Srv} {q q1 : Req} {fx fx1 : List Eff} : Trip L F q fx1 [q1] L1 F1 →
      Trips n L1 F1 q1 fx L' F' → Trips (n + 1) L F q (fx1 ++ fx) L' F'

/-- A server that has the snapshot already. -/
structure Has (F : Srv) (j : Int) (t : Nat) (snp : Snap) : Prop where
  id : F.id = j
  term : F.term ≤ t
  role : F.term = t → F.role ≠ .leader
  joined : F.catchingUp = false
  has : snp.lastIdx ≤ F.smCommit

/-- A server refuses a snapshot it has already. -/
theorem run_refuse {F : Srv} {j : Int} {t : Nat} {snp : Snap} {r : Req} {e : Nat} {q : SnpSync}
    (h : Has F j t snp) (hr : r.type = .snpReq) (ht : r.term = t) (he : r.entries = [⟨e, .snpSync⟩])
    (hs : r.sync = some q) (hq : q.snap = snp) :
    ∃ F' resp, (Input.req r).run F = (.ok ⟨⟩, F') ∧ Has F' j t snp ∧ arrivals F'.trace = arrivals F.trace ∧
      answers F'.trace = answers F.trace ++ [resp] ∧ resp.type = .snpResp ∧ resp.term = t ∧ resp.src = j ∧
      resp.accepted = false := by
  have hd : processReq r F = handleInstallSnapshot r (F.heard r) := by
    rw [run_processReq]; unfold dispatch handleExtended; rw [hr]
  have h1 : Has (F.heard r) j t snp ∧ (F.heard r).term = t ∧ Hushed F (F.heard r) := by
    unfold Srv.heard
    rw [if_pos (.inr (.inr hr)), ht]
    have h1 := h.term
    by_cases h2 : F.term < t
    · rw [if_pos h2]
      refine ⟨⟨h.id, Nat.le_refl _, fun _ => (by intro h; cases h), h.joined, h.has⟩, rfl, rfl, ?_, ?_⟩
      · show arrivals ((F.trace ++ [_]) ++ [_]) = _
        unfold arrivals; simp
      · show answers ((F.trace ++ [_]) ++ [_]) = _
        unfold answers; simp
    · rw [if_neg h2]
      exact ⟨⟨h.id, h.term, h.role, h.joined, h.has⟩, show F.term = t by omega, rfl, rfl, rfl⟩
  obtain ⟨h1, h2, h3⟩ := h1
  have h4 : ∃ F1, hearSnapshotLeader r (F.heard r) = (.ok ⟨⟩, F1) ∧ Has F1 j t snp ∧ F1.term = t ∧
      Hushed (F.heard r) F1 := by
    generalize F.heard r = G at h1 h2
    unfold hearSnapshotLeader
    rw [bind_get, if_pos ⟨ht.trans h2.symm, h1.joined⟩]
    rcases hr : G.role with _ | _ | _
    · exact ⟨_, run_restart G, ⟨h1.id, h1.term, h1.role, h1.joined, h1.has⟩, h2, rfl, rfl, rfl⟩
    · refine ⟨_, run_becomeFollower G, ⟨h1.id, h1.term, fun _ => (by intro h; cases h), h1.joined, h1.has⟩, h2, rfl, ?_, ?_⟩
      · show arrivals (G.trace ++ [_]) = _
        unfold arrivals; simp
      · show answers (G.trace ++ [_]) = _
        unfold answers; simp
    · exact absurd hr (h1.role h2)
  obtain ⟨F1, c1, c2, c3, c4⟩ := h4
  have h5 := h3.trans c4
  have hb := c2.has
  have hp : processReq r F = (.ok { type := .snpResp, term := t, src := j, dst := r.src }, F1) := by
    rw [hd]
    unfold handleInstallSnapshot
    rw [run_bind_ok c1, bind_get, if_neg (by omega), he, hs]
    show (if q.snap.lastIdx ≤ F1.smCommit then _ else _ : R Resp) F1 = _
    rw [hq, if_pos hb, c2.id, c3]
    rfl
  have hi : (Input.req r).run F = (processReq r >>= fun resp => emit (.reply resp)) F := rfl
  rw [hi, run_bind_ok hp]
  refine ⟨_, { type := .snpResp, term := t, src := j, dst := r.src }, rfl, ⟨c2.id, c2.term, c2.role, c2.joined, c2.has⟩,
    ?_, ?_, rfl, rfl, rfl, rfl⟩
  · show arrivals (F1.trace ++ [_]) = _
    rw [arrivals_append, h5.2.1]
    exact List.append_nil _
  · show answers (F1.trace ++ [_]) = _
    rw [answers_append, h5.2.2]
    rfl

/-- C61, negative: when the leader sends a block of a snapshot the member has installed already, because the answer to the last
block was lost, leader and member exchange the same request and the same refusal without end: after any number of requests the
state machine has been given nothing and the leader still waits to send the block at the same offset. -/
theorem lost_ack_resends_forever {L F : Srv} {j : Int} {snp : Snap} {bytes : List Byte} {off : Nat}
    (hL : Sending L j snp bytes off true) (ho : off < bytes.length) (hF : Has F j L.term snp) :
    ∀ n, ∃ fx L' F', Trips n L F (blockReq L j snp bytes off) fx L' F' ∧ arrivals fx = [] ∧ Sending L' j snp bytes off true := by
  intro n
  induction n generalizing L F with
  | zero => exact ⟨[], L, F, .nil, rfl, hL⟩
  | succ n ih =>
    have hF0 : Has { F with trace := [] } j L.term snp := ⟨hF.id, hF.term, hF.role, hF.joined, hF.has⟩
    obtain ⟨F1, resp, c1, c2, c3, c4, r1, r2, r3, r4⟩ := run_refuse (r := blockReq L j snp bytes off) hF0 rfl rfl rfl rfl rfl
    obtain ⟨L1, e1, e2, e3, e4⟩ := run_refusal (r := resp) (hL.emit []) ⟨r1, r2, r3⟩ r4 ho
    obtain ⟨fx, L', F', g1, g2, g3⟩ := ih (L := L1) (F := F1) e2 (by rw [e3.term]; exact c2)
    refine ⟨F1.trace ++ fx, L', F', .cons (q1 := blockReq L1 j snp bytes off) ?_ g1, ?_, g3⟩
    · have : sends L1.trace = [blockReq L1 j snp bytes off] := by
        rw [e4, e3.block]
        rfl
      rw [← this]
      exact .mk c1 c4 e1
    · rw [arrivals_append, c3, g2]
      rfl

/-- The hypotheses can be met. -/
example : Sending { tenLeader with peers := [{ cfg := ⟨2, 2⟩, nextIdx := 3, hbInterval := 75, busy := true, snpCtx := some (tenSnap, 8) }] }
      2 tenSnap ((List.range 10).map (BitVec.ofNat 8)) 8 true ∧
    Has { tenFollower with log := ⟨11, []⟩, smCommit := 10, quickCommit := 10 } 2 5 tenSnap :=
  ⟨⟨rfl, ⟨_, rfl, rfl, rfl, by decide, by decide⟩, by decide, by decide, by decide, fun _ _ _ => ⟨rfl, rfl, rfl⟩, by decide⟩,
   ⟨rfl, by decide, by decide, rfl, by decide⟩⟩

end Cs.Raft
