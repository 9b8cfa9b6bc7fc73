import Verif.Raft.Blocks
import Verif.Raft.PropsSnap

/-!
# C104: the blocks of a snapshot are those that the state machine has read

The leader asks its state machine for each block of a snapshot (`read_snapshot_data`): the state machine fills a buffer and returns how
many bytes it has read.
-/

namespace Cs.Raft
open Cs

/-! ## Specification -/

/-- The block of a request, if it has one, has been read in full: for some number of bytes (a buffer has less
than 2^31), the state machine has reported at least that
many, and the block is what it has put in the buffer. The request is marked as the last one if the block ends the snapshot. -/
def Req.Read (e : Env) (r : Req) : Prop :=
  ∀ q, r.sync = some q → ∃ n : Nat, n < 2147483648 ∧ (n : Int) ≤ e.readRet q.snap q.offset n ∧ q.data = e.readSnp q.snap q.offset n ∧
    (q.done = true ↔ q.snap.size ≤ q.offset + q.data.length)

/-- A state machine that tells how many bytes it has read, never a negative number (it is an `int`), and leaves the buffer at its start. -/
structure Env.Proper (e : Env) : Prop where
  fills : ∀ snp o n, (e.readSnp snp o n).length = n
  ret : ∀ snp o n, n < 2147483648 → 0 ≤ e.readRet snp o n ∧ e.readRet snp o n < 2147483648
  pos : ∀ snp o n, e.readPos snp o n = 0

/-! ## Histories -/

/-- The state machine of a server is the one it was started with. -/
def Node.Sm (c : Setup) (n : Node) : Prop := ∀ s, n.up = some s → s.env = c.env

theorem Hist.asked {c : Setup} {n n' : Node} {xs : List Input} {fx : List Eff} (h : Hist c n xs fx n') (hn : n.Sm c)
    (hx : ∀ r, .retry r ∈ xs → r.Asked c.env) : n'.Sm c ∧ ∀ r, .send r ∈ fx → r.Asked c.env := by
  induction h with
  | nil => exact ⟨hn, fun _ h => (by cases h)⟩
  | @step n1 n2 xs fx es x h1 hs ih =>
    obtain ⟨a1, a2⟩ := ih fun r hr => hx r (List.mem_append_left _ hr)
    have key : ∀ (s : Srv) (i : Input), n1.up = some s → x = some i →
        (i.run { s with trace := [] }).2.env = c.env ∧ ∀ r, .send r ∈ (i.run { s with trace := [] }).2.trace → r.Asked c.env := by
      intro s i h1 h2
      obtain ⟨b1, es, b2, b3⟩ := bk_run (x := i) (p := c.env) (fun r hr => hx r (List.mem_append_right _ (by rw [h2, hr]; simp)))
        { s with trace := [] } (a1 s h1)
      have hp : s.env = c.env := a1 s h1
      refine ⟨b1.trans hp, fun r hr => ?_⟩
      rw [b2] at hr
      have := b3 r hr
      rw [show ({ s with trace := [] } : Srv).env = c.env from hp] at this
      exact this
    have fin : ∀ {m : Node}, m.Sm c → (∀ r, .send r ∈ es → r.Asked c.env) → m.Sm c ∧ ∀ r, .send r ∈ fx ++ es → r.Asked c.env :=
      fun h1 h2 => ⟨h1, fun r hr => (List.mem_append.1 hr).elim (a2 r) (h2 r)⟩
    cases hs with
    | run hr =>
      have := key _ _ rfl rfl
      rw [hr] at this
      exact fin (fun s hs => by cases hs; exact this.1) this.2
    | survive hr =>
      have := key _ _ rfl rfl
      rw [hr] at this
      exact fin (fun s hs => by cases hs; exact this.1) this.2
    | crash hp =>
      have := (key _ _ rfl rfl).2
      exact fin (fun s hs => (by cases hs)) fun r hr => this r (hp.subset hr)
    | boot => exact fin (fun s hs => by cases hs; rfl) fun _ h => (by cases h)

theorem Req.Asked.read {e : Env} (he : e.Proper) {r : Req} (h : r.Asked e) : r.Read e := by
  intro q hq
  obtain ⟨n, h1, h2, h3, h4⟩ := h q hq
  have hb : e.block q.snap q.offset n = e.readSnp q.snap q.offset n := by
    unfold Env.block Env.held
    rw [he.pos, List.drop_zero, List.take_append_of_le_length (by rw [he.fills]; exact Nat.le_refl _),
      List.take_of_length_le (by rw [he.fills]; exact Nat.le_refl _)]
  refine ⟨n, h4, ?_, h2.trans hb, ?_⟩
  · have := he.ret q.snap q.offset n h4
    unfold Env.short at h1
    omega
  · rw [h3, h2, hb, he.fills]

theorem Req.Read.asked {e : Env} (he : e.Proper) {r : Req} (h : r.Read e) : r.Asked e := by
  intro q hq
  obtain ⟨n, h0, h1, h2, h3⟩ := h q hq
  have hb : e.block q.snap q.offset n = e.readSnp q.snap q.offset n := by
    unfold Env.block Env.held
    rw [he.pos, List.drop_zero, List.take_append_of_le_length (by rw [he.fills]; exact Nat.le_refl _),
      List.take_of_length_le (by rw [he.fills]; exact Nat.le_refl _)]
  have hr' := he.ret q.snap q.offset n h0
  refine ⟨n, ?_, h2.trans hb.symm, ?_, by omega⟩
  · unfold Env.short
    omega
  · rw [h3, h2, he.fills]

/-- C104, for state machines that never return a negative number and leave the position of the buffer at its start: whatever happens to a
server, each block it sends has been read in full by its state machine, and the last block is marked as such. (A request that is sent again
was one of these.)

Missing: the other state machines, for which it is false: `failed_read_sent`, `moved_block_empty`. -/
theorem blocks_read_partial {c : Setup} {n n' : Node} {xs : List Input} {fx : List Eff} (h : Hist c n xs fx n') (hn : n.up = none)
    (he : c.env.Proper) (hx : ∀ r, .retry r ∈ xs → r.Read c.env) :
    ∀ r, .send r ∈ fx → r.Read c.env := fun r hs =>
  ((h.asked (fun s hs => by rw [hn] at hs; cases hs) fun r hr' => (hx r hr').asked he).2 r hs).read he

/-! ## One block -/

/-- The leader's next block for member `j` is the one at `off`: there are bytes left, the snapshot is not too large. -/
structure Next (L : Srv) (j : Int) (snp : Snap) (off : Nat) : Prop where
  peer : ∃ p, L.findPeer j = some p ∧ p.snpCtx = some (snp, off)
  latest : ∀ l, L.lastSnap = some l → l.lastIdx ≤ snp.lastIdx
  inside : off < snp.size
  small : snp.size < 2 ^ 31
  block : 0 < blockSize L.params

/-- The number of bytes that are asked for. -/
def Next.bytes (L : Srv) (snp : Snap) (off : Nat) : Nat := min (blockSize L.params).toNat (snp.size - off)

theorem Next.run {L : Srv} {j : Int} {snp : Snap} {off : Nat} (h : Next L j snp off) (li t c : Nat) :
    createSyncSnapshotReq (.member j) li t c L = (if L.env.short snp off (Next.bytes L snp off) then die (-1) else
      pure { type := .snpReq, term := t, src := L.id, dst := j, lastTerm := snp.lastTerm, lastIdx := snp.lastIdx, commitIdx := c,
             entries := [⟨t, .snpSync⟩],
             sync := some ⟨snp, off, L.env.block snp off (Next.bytes L snp off), decide (snp.size ≤ off + Next.bytes L snp off)⟩ } : R Req) L := by
  obtain ⟨p, hp, hc⟩ := h.peer
  have hp' : L.peer (.member j) = some p := hp
  have hid : p.id = j := by have := List.find?_some hp; simpa using this
  have h1 : chooseSnap (.member j) li L = (.ok ⟨⟩, L) := by
    unfold chooseSnap
    rw [bind_get, run_bind_ok (getPeer_some hp'), if_neg]
    · rfl
    · rw [hc]
      rcases hl : L.lastSnap with _ | l
      · simp
      · have := h.latest l hl
        simp only [decide_eq_true_eq]
        omega
  unfold createSyncSnapshotReq
  rw [run_bind_ok h1, bind_get, run_bind_ok (getPeer_some hp'), hc]
  have hbl := h.block
  have hin := h.inside
  have hm : min (blockSize L.params) (toI32 (subU64 snp.size off)) = ((Next.bytes L snp off : Nat) : Int) := by
    rw [left_bytes (by omega) h.small]
    unfold Next.bytes
    omega
  show (if min (blockSize L.params) (toI32 (subU64 snp.size off)) < 0 then throw .thrown
    else
      if L.env.short snp off (min (blockSize L.params) (toI32 (subU64 snp.size off))).toNat then die (-1)
      else
        pure { type := .snpReq, term := t, src := L.id, dst := p.id, lastTerm := snp.lastTerm,
               lastIdx := snp.lastIdx, commitIdx := c, entries := [⟨t, .snpSync⟩],
               sync := some ⟨snp, off,
                 L.env.block snp off (min (blockSize L.params) (toI32 (subU64 snp.size off))).toNat,
                 decide (snp.size ≤ off + (min (blockSize L.params) (toI32 (subU64 snp.size off))).toNat)⟩ } : R Req) L = _
  rw [hm, Int.toNat_natCast, hid, if_neg (by omega)]

/-- A state machine that reports fewer bytes than it was asked for, but no failure: the process is ended and nothing is sent. -/
theorem short_read_exits {L : Srv} {j : Int} {snp : Snap} {off : Nat} (h : Next L j snp off)
    (h0 : 0 ≤ L.env.readRet snp off (Next.bytes L snp off)) (h1 : L.env.readRet snp off (Next.bytes L snp off) < Next.bytes L snp off)
    (li t c : Nat) :
    ∃ L', createSyncSnapshotReq (.member j) li t c L = (.error (.exit (-1)), L') ∧ L'.trace = L.trace ++ [.exit (-1)] := by
  have hn : Next.bytes L snp off < 2 ^ 31 := by
    have := h.small
    unfold Next.bytes
    omega
  rw [h.run, if_pos (by unfold Env.short; omega)]
  exact ⟨_, rfl, rfl⟩

/-- C104 fails: if the state machine reports failure with a negative number, the block is sent all the same, with whatever is in the
memory. -/
theorem failed_read_sent {L : Srv} {j : Int} {snp : Snap} {off : Nat} (h : Next L j snp off)
    (h0 : L.env.readRet snp off (Next.bytes L snp off) < 0) (h1 : -2 ^ 31 ≤ L.env.readRet snp off (Next.bytes L snp off))
    (li t c : Nat) :
    ∃ r q, createSyncSnapshotReq (.member j) li t c L = (.ok r, L) ∧ r.type = .snpReq ∧ r.dst = j ∧ r.sync = some q ∧ q.snap = snp ∧
      q.offset = off ∧ q.data = L.env.block snp off (Next.bytes L snp off) ∧ (q.done = true ↔ snp.size ≤ off + Next.bytes L snp off) := by
  have hn : Next.bytes L snp off < 2 ^ 31 := by
    have := h.small
    unfold Next.bytes
    omega
  rw [h.run, if_neg (by unfold Env.short; omega)]
  exact ⟨_, _, rfl, rfl, rfl, rfl, rfl, rfl, rfl, decide_eq_true_iff⟩

/-- C104 fails: if the state machine fills the buffer with the functions of the buffer and does not set its position back, the block is sent
without any bytes, although it has been read in full. -/
theorem moved_block_empty {L : Srv} {j : Int} {snp : Snap} {off : Nat} (h : Next L j snp off)
    (h0 : L.env.readRet snp off (Next.bytes L snp off) = Next.bytes L snp off)
    (h1 : L.env.readPos snp off (Next.bytes L snp off) = Next.bytes L snp off) (li t c : Nat) :
    ∃ r q, createSyncSnapshotReq (.member j) li t c L = (.ok r, L) ∧ r.type = .snpReq ∧ r.sync = some q ∧ q.snap = snp ∧
      q.offset = off ∧ q.data = [] ∧ (q.done = true ↔ snp.size ≤ off + Next.bytes L snp off) := by
  have hn : Next.bytes L snp off < 2 ^ 31 := by
    have := h.small
    unfold Next.bytes
    omega
  rw [h.run, if_neg (by unfold Env.short; omega)]
  refine ⟨_, _, rfl, rfl, rfl, rfl, rfl, ?_, decide_eq_true_iff⟩
  show (L.env.held snp off (Next.bytes L snp off)).drop _ = []
  rw [h1]
  refine List.drop_eq_nil_of_le ?_
  unfold Env.held
  rw [List.length_take]
  omega

/-! ## What comes of it -/

/-- The state machine of `tenBytes`, which cannot read anything any more. -/
def tenFails : Env := { tenBytes with readSnp := fun _ _ n => List.replicate n 255, readRet := fun _ _ _ => -1 }
/-- The state machine of `tenBytes`, which fills the buffer with `put`. -/
def tenPuts : Env := { tenBytes with readPos := fun _ _ n => n }

/-- The hypotheses can be met: the leader of C48 with these state machines; in one case it has to send the block at offset 4. -/
example : Next { tenLeader with env := tenFails, peers := [{ cfg := ⟨2, 2⟩, nextIdx := 3, hbInterval := 75, snpCtx := some (tenSnap, 4) }] }
    2 tenSnap 4 ∧
    tenFails.readRet tenSnap 4 4 = -1 ∧ tenPuts.readRet tenSnap 4 4 = 4 ∧ tenPuts.readPos tenSnap 4 4 = 4 ∧ tenBytes.readRet tenSnap 4 4 = 4 :=
  ⟨⟨⟨_, rfl, rfl⟩, by decide, by decide, by decide, by decide⟩, rfl, rfl, rfl, rfl⟩

/-- The answer of a member that needs entries from index 3 on. -/
def behindResp : Resp := { type := .appendResp, term := 6, src := 2, dst := 1, nextIdx := 3 }
/-- The request with all bytes of a snapshot that the state machine could not read. -/
def poison : Req :=
  { type := .snpReq, term := 6, src := 1, dst := 2, lastTerm := 5, lastIdx := 10, commitIdx := 10, entries := [⟨6, .snpSync⟩],
    sync := some ⟨tenSnap, 0, List.replicate 10 255, true⟩ }

/-- C104 fails, from the start of a server: it starts with a snapshot, becomes leader, and a member needs the snapshot, which the state machine
cannot read (it returns -1). The leader sends ten bytes that are not of the snapshot, and marks them as its end; the state machine of the
member is given them and is told to apply the snapshot. -/
theorem unread_snapshot_applied :
    (∃ (d : Disk) (xs : List Input) (fx : List Eff) (n : Node), d.snap = some tenSnap ∧
      Hist ⟨1, { snpBlock := 16 }, tenFails⟩ ⟨d, none⟩ xs fx n ∧ .send poison ∈ fx) ∧
    ∃ F, (Input.req poison).run tenFollower = (.ok ⟨⟩, F) ∧
      arrivals F.trace = [.saveSnpData tenSnap 0 (List.replicate 10 255), .applySnp tenSnap] := by
  refine ⟨?_, _, rfl, by decide +kernel⟩
  obtain ⟨n, fx, h, hp⟩ := Node.witness (c := ⟨1, { snpBlock := 16 }, tenFails⟩)
    (n := ⟨{ term := 5, config := conf3, log := tenLeader.log, applied := 10, snap := some tenSnap }, none⟩)
    [.start, .go .electionTimeout, .go (voteRespOf 2 6 true), .go (.peerResp .appendReq behindResp)]
    (fun _ fx => fx.any fun e => decide (e = .send poison))
    (by decide +kernel)
  obtain ⟨e, he, h1⟩ := List.any_eq_true.1 hp
  exact ⟨_, _, fx, n, rfl, h, by rw [← of_decide_eq_true h1]; exact he⟩

/-- The hypotheses of `blocks_read_partial` can be met, and a block is sent: the same history with a state machine that can read. -/
example : Env.plain.Proper ∧ 
    ∃ (d : Disk) (xs : List Input) (fx : List Eff) (n : Node), Hist ⟨1, { snpBlock := 16 }, Env.plain⟩ ⟨d, none⟩ xs fx n ∧
      (∀ r, .retry r ∈ xs → r.Read Env.plain) ∧ ∃ r, .send r ∈ fx ∧ r.sync = some ⟨tenSnap, 0, List.replicate 10 0, true⟩ := by
  refine ⟨⟨fun _ _ n => List.length_replicate, fun _ _ n hn => ⟨Int.natCast_nonneg n, Int.ofNat_lt.2 hn⟩, fun _ _ _ => rfl⟩, ?_⟩
  obtain ⟨n, fx, h, hp⟩ := Node.witness (c := ⟨1, { snpBlock := 16 }, Env.plain⟩)
    (n := ⟨{ term := 5, config := conf3, log := tenLeader.log, applied := 10, snap := some tenSnap }, none⟩)
    [.start, .go .electionTimeout, .go (voteRespOf 2 6 true), .go (.peerResp .appendReq behindResp)]
    (fun _ fx => fx.any fun e => match e with | .send r => decide (r.sync = some ⟨tenSnap, 0, List.replicate 10 0, true⟩) | _ => false)
    (by decide +kernel)
  obtain ⟨e, he, h1⟩ := List.any_eq_true.1 hp
  refine ⟨_, _, fx, n, h, fun r hr => ?_, ?_⟩
  · simp [Move.input, voteRespOf] at hr
  · cases e with
    | send r => exact ⟨r, he, of_decide_eq_true h1⟩
    | _ => cases h1

/-- The leader that has sent an empty block, and waits for the answer. -/
def puts : Srv :=
  { tenLeader with env := tenPuts, peers := [{ cfg := ⟨2, 2⟩, nextIdx := 3, hbInterval := 75, busy := true, snpCtx := some (tenSnap, 0), hbEnabled := true }] }
/-- The request with the empty block. -/
def emptyReq : Req :=
  { type := .snpReq, term := 5, src := 1, dst := 2, lastTerm := 5, lastIdx := 10, commitIdx := 0, entries := [⟨5, .snpSync⟩],
    sync := some ⟨tenSnap, 0, [], false⟩ }
/-- What the member answers. -/
def emptyResp : Resp := { type := .snpResp, term := 5, src := 2, dst := 1, nextIdx := 0, accepted := true }

/-- C104 fails: with a state machine that fills the buffer with `put`, leader and member exchange the same empty block without end: after any
number of requests the state machine of the member has been given nothing but empty blocks for offset 0. -/
theorem empty_blocks_forever (n : Nat) : ∃ fx L F, Trips n puts { tenFollower with armed := true } emptyReq fx L F ∧
    arrivals fx = List.replicate n (.saveSnpData tenSnap 0 []) := by
  have key : ∀ (n : Nat) (x y : List Eff), ∃ fx L F, Trips n { puts with trace := x } { tenFollower with armed := true, trace := y } emptyReq fx L F ∧
      arrivals fx = List.replicate n (.saveSnpData tenSnap 0 []) := by
    intro n
    induction n with
    | zero => exact fun x y => ⟨_, _, _, .nil, rfl⟩
    | succ n ih =>
      intro x y
      obtain ⟨fx, L, F, h1, h2⟩ := ih [.send emptyReq] [.saveSnpData tenSnap 0 [], .reply emptyResp]
      refine ⟨_, L, F, .cons (q := emptyReq) (q1 := emptyReq)
        (Trip.mk (resp := emptyResp) (F' := { tenFollower with armed := true, trace := [.saveSnpData tenSnap 0 [], .reply emptyResp] })
          (L' := { puts with trace := [.send emptyReq] }) rfl rfl rfl) h1, ?_⟩
      rw [arrivals_append, h2]
      rfl
  exact key n [] []

end Cs.Raft
