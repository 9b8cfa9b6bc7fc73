import Verif.Cluster.PropsSettings
import Verif.Raft.PropsJoin
import Verif.Raft.Forward
import Verif.LogStore.PropsPack

/-!
# C102: numbers of entries in a log pack that are not positive

A leader sends the entries that a joining server lacks in packs of `log_sync_batch_size_`, and only committed ones. What the log store does
with a number that is not positive: `Cs.LogStore.pack_negative_all`, `pack_negative_throws` and `pack_zero_throws`.
-/

namespace Cs.Raft
open Cs

/-- A leader has to send the entries from index `n` on to a server that joins. -/
structure Packs (L : Srv) (p : Peer) (n : Nat) : Prop where
  joining : L.srvToJoin = some p
  start : L.log.start ≤ n
  pos : 0 < n
  committed : n ≤ L.quickCommit
  log : L.quickCommit < L.log.next
  small : L.quickCommit < 2 ^ 31
  gap : L.params.logSyncGap ≤ (L.quickCommit - n : Nat)

theorem Packs.run {L : Srv} {p : Peer} {n : Nat} (h : Packs L p n) :
    syncLogToNewSrv n L = (match packOf L.log n (min ((L.quickCommit - n : Nat) : Int) L.params.logSyncBatch) with
      | none => throw .thrown
      | some es => emit (.send { type := .syncReq, term := L.term, src := L.id, dst := p.id, lastTerm := 0, lastIdx := n - 1,
                                 commitIdx := L.quickCommit, entries := [⟨L.term, .logPack⟩], pack := es }) : R Unit) L := by
  have h1 := h.start
  have h2 := h.pos
  have h3 := h.gap
  have hs := h.small
  have hn := h.committed
  have e1 : toI32 (subU64 L.quickCommit n : Nat) = (L.quickCommit - n : Nat) := by
    rw [sub_le hn hs, toI32_small (by omega)]
  unfold syncLogToNewSrv
  rw [bind_get, e1, if_neg (by omega), if_neg (by omega), if_neg (by omega)]
  cases packOf L.log n (min ((L.quickCommit - n : Nat) : Int) L.params.logSyncBatch) with
  | none => rfl
  | some es =>
    show (getPeer .joining >>= fun p => emit (.send _)) L = _
    rw [run_bind_ok (getPeer_some (r := .joining) h.joining), sub_le (a := n) (b := 1) (by omega) (by omega)]

/-- C102 fails: with a negative size of packs, a server that needs the first few entries of the log (fewer than that number are before them) is sent
everything up to the end of the log, also what is not committed. -/
theorem negative_batch {L : Srv} {p : Peer} {n : Nat} (h : Packs L p n)
    (hb : ((n - L.log.start : Nat) : Int) + L.params.logSyncBatch < 0) :
    ∃ r, syncLogToNewSrv n L = (.ok ⟨⟩, { L with trace := L.trace ++ [.send r] }) ∧ r.type = .syncReq ∧ r.dst = p.id ∧ r.lastIdx = n - 1 ∧
      r.pack = L.log.range n L.log.next := by
  have hn := h.committed
  have hl := h.log
  rw [h.run]
  have e : packOf L.log n (min ((L.quickCommit - n : Nat) : Int) L.params.logSyncBatch) = some (L.log.range n L.log.next) := by
    unfold packOf
    rw [if_neg (by omega), if_neg (by omega), if_pos (by omega)]
  rw [e]
  exact ⟨_, rfl, rfl, rfl, rfl, rfl⟩

/-- C102 fails: otherwise a size of packs that is not positive makes the leader throw whenever it has to send one, so that no server can join that
lacks entries. -/
theorem unusable_batch {L : Srv} {p : Peer} {n : Nat} (h : Packs L p n) (h0 : L.params.logSyncBatch ≤ 0)
    (hb : 0 ≤ ((n - L.log.start : Nat) : Int) + L.params.logSyncBatch) :
    syncLogToNewSrv n L = (.error .thrown, L) := by
  have hn := h.committed
  have hl := h.log
  rw [h.run]
  have e : packOf L.log n (min ((L.quickCommit - n : Nat) : Int) L.params.logSyncBatch) = none := by
    unfold packOf
    rw [if_neg (by omega), if_neg (by omega), if_neg (by omega)]
  rw [e]
  rfl

/-- A leader that has committed two of three entries. -/
def packSrv (b : Int) : Srv :=
  { id := 1, config := conf3, log := ⟨1, [⟨1, .app 1⟩, ⟨1, .app 2⟩, ⟨1, .app 3⟩]⟩, params := { logSyncBatch := b, logSyncGap := 1 },
    srvToJoin := some { cfg := ⟨4, 4⟩, hbInterval := 75 }, quickCommit := 2 }

/-- The hypotheses can be met. -/
example : Packs (packSrv (-5)) { cfg := ⟨4, 4⟩, hbInterval := 75 } 1 ∧ Packs (packSrv 0) { cfg := ⟨4, 4⟩, hbInterval := 75 } 1 ∧ ((1 - 1 : Nat) : Int) + -5 < 0 ∧ 0 ≤ ((1 - 1 : Nat) : Int) + 0 :=
  ⟨⟨rfl, by decide, by decide, by decide, by decide, by decide, by decide⟩,
   ⟨rfl, by decide, by decide, by decide, by decide, by decide, by decide⟩, by decide, by decide⟩

/-- The leader with packs of -5 entries. -/
def packer : Setup := ⟨1, (Settings.build [.logSyncBatch (-5), .logSyncGap 1]).params, Env.plain⟩
/-- Entries 1 to 3 of the leader, the first two of which are committed. -/
def packLog : List Entry := [⟨1, .conf ⟨1, 0, conf3.servers⟩⟩, ⟨1, .app 7⟩, ⟨1, .app 8⟩]
/-- The invitation of server 4. -/
def packJoin : Req :=
  { type := .joinReq, term := 1, src := 1, dst := 4, lastTerm := 0, lastIdx := 3, commitIdx := 2, entries := [⟨1, .conf ⟨1, 0, conf3.servers⟩⟩] }
/-- The pack. -/
def packSync : Req :=
  { type := .syncReq, term := 1, src := 1, dst := 4, lastTerm := 0, lastIdx := 0, commitIdx := 2, entries := [⟨1, .logPack⟩], pack := packLog }

/-- C102 fails, from the start of two servers: the leader, whose packs have a negative size, has committed two of its three entries and invites a
server; that server gets all three and commits them, although nobody but the leader has the third one. -/
theorem uncommitted_committed :
    (∃ xs fx n s, Hist packer (Node.fresh conf3) xs fx n ∧ .send packJoin ∈ fx ∧ .send packSync ∈ fx ∧ n.up = some s ∧ s.role = .leader ∧
      s.quickCommit = 2 ∧ s.log = ⟨1, packLog⟩) ∧
    ∃ fx n s, Hist ⟨4, {}, Env.plain⟩ (Node.fresh ⟨0, 0, [⟨4, 4⟩]⟩) [.req packJoin, .req packSync, .apply, .apply, .apply] fx n ∧ n.up = some s ∧
      s.quickCommit = 3 ∧ .commit 3 ⟨1, .app 8⟩ ∈ fx := by
  constructor
  · obtain ⟨n, fx, h, hp⟩ := Node.witness (c := packer) (n := Node.fresh conf3)
      [.start, .go .electionTimeout, .go (voteRespOf 2 1 true), .go (.replicate 7), .go (.replicate 8),
        .go (.peerResp .appendReq { type := .appendResp, term := 1, src := 2, dst := 1, nextIdx := 3, accepted := true }), .go .apply, .go .apply,
        .go (.req (userReq .addReq [⟨0, .srv ⟨4, 4⟩⟩])),
        .go (.extResp .joining .joinReq { type := .joinResp, term := 1, src := 4, dst := 1, nextIdx := 1, accepted := true })]
      (fun n fx => fx.any (fun e => decide (e = .send packJoin)) && fx.any (fun e => decide (e = .send packSync)) &&
        n.up.any fun (s : Srv) => decide (s.role = .leader ∧ s.quickCommit = 2 ∧ s.log = ⟨1, packLog⟩))
      (by decide +kernel)
    rw [Bool.and_eq_true, Bool.and_eq_true, List.any_eq_true, List.any_eq_true] at hp
    obtain ⟨⟨⟨e1, m1, h1⟩, e2, m2, h2⟩, h3⟩ := hp
    obtain ⟨d, up⟩ := n
    cases up with
    | none => cases h3
    | some s =>
      have h3 := of_decide_eq_true (show decide (s.role = .leader ∧ s.quickCommit = 2 ∧ s.log = ⟨1, packLog⟩) = true from h3)
      exact ⟨_, fx, _, s, h, by rw [← of_decide_eq_true h1]; exact m1, by rw [← of_decide_eq_true h2]; exact m2, rfl, h3⟩
  · obtain ⟨n, fx, h, hp⟩ := Node.witness (c := ⟨4, {}, Env.plain⟩) (n := Node.fresh ⟨0, 0, [⟨4, 4⟩]⟩)
      [.start, .go (.req packJoin), .go (.req packSync), .go .apply, .go .apply, .go .apply]
      (fun n fx => fx.any (fun e => decide (e = .commit 3 ⟨1, .app 8⟩)) && n.up.any fun (s : Srv) => decide (s.quickCommit = 3))
      (by decide +kernel)
    rw [Bool.and_eq_true, List.any_eq_true] at hp
    obtain ⟨⟨e1, m1, h1⟩, h3⟩ := hp
    obtain ⟨d, up⟩ := n
    cases up with
    | none => cases h3
    | some s =>
      exact ⟨fx, _, s, h, rfl, of_decide_eq_true (show decide (s.quickCommit = 3) = true from h3), by rw [← of_decide_eq_true h1]; exact m1⟩

end Cs.Raft
