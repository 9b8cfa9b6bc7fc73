import Verif.Raft.Advance
import Verif.Raft.Progress
import Verif.Raft.PropsCommit
import Verif.Raft.PropsLog

/-!
# Leader: commit index and election (C35, C36, C37)

`Granted`, `Reported` and `Input.counts` are defined in `Verif/Raft/Progress.lean`.
-/

namespace Cs.Raft
open Cs

/-! ## C35 -/

theorem nodup_holders {P : List Input} {s : Srv} (hm : MInv P s) (n : Nat) (hn : 0 < n) :
    ∃ V : List Int, V.Nodup ∧ V.length = s.holders n ∧ ∀ v ∈ V, (v = s.id ∧ n < s.log.next) ∨ Reported P v n := by
  refine ⟨(if n < s.log.next then [s.id] else []) ++
    (s.peers.filter fun p => decide (n ≤ p.matched)).map Peer.id, ?_, ?_, ?_⟩
  · rw [List.nodup_append]
    refine ⟨by split <;> simp, hm.nodup.sublist (List.filter_sublist.map _), ?_⟩
    intro a ha b hb he
    have hb' := (List.filter_sublist.map Peer.id).subset hb
    split at ha
    · rw [List.mem_singleton.1 ha] at he
      rw [← he] at hb'
      exact hm.self hb'
    · simp at ha
  · unfold Srv.holders
    rw [List.length_append, List.length_map]
    split <;> rfl
  · intro v hv
    rcases List.mem_append.1 hv with h | h
    · split at h
      · exact .inl ⟨List.mem_singleton.1 h, ‹_›⟩
      · simp at h
    · obtain ⟨p, hp, rfl⟩ := List.mem_map.1 h
      obtain ⟨h1, h2⟩ := List.mem_filter.1 hp
      exact .inr (hm.matched p h1 n hn (of_decide_eq_true h2))

/-- C35. When the answer to an append request makes a server advance its commit index to `n`, more than half of the
servers, each counted once, have index `n`: the server itself, and servers that reported so. Answers are assumed not to
carry next index 0 (`accepted_next_index_positive`: servers never send such an answer). -/
theorem commit_index_backed_by_majority {c : Setup} {cfg : Config} {xs : List Input} {fx es : List Eff} {d : Disk} {s : Srv}
    {n' : Node} {ty : MsgType} {r : Resp} {n : Nat} (h : Hist c (Node.fresh cfg) xs fx ⟨d, some s⟩)
    (hr : r.type = .appendResp) (hs : Node.Step c ⟨d, some s⟩ (some (.peerResp ty r)) es n') (ha : .advance n ∈ es)
    (hc : ∀ x ∈ xs ++ [.peerResp ty r], x.counts) :
    ∃ V : List Int, V.Nodup ∧ s.peers.length + 1 < 2 * V.length ∧
      ∀ v ∈ V, (v = c.id ∧ n < s.log.next) ∨ Reported (xs ++ [.peerResp ty r]) v n := by
  have hm := h.minv (fun x hx => hc x (List.mem_append_left _ hx)) s rfl
  have hq := @gq_run _ _ (MQ.prims (P := xs ++ [.peerResp ty r]) (x := .peerResp ty r) (by simp) (hc _ (by simp)))
    { s with trace := [] }
  have hadv := appendResp_adv (ty := ty) hr { s with trace := [] }
  have hl := @gq_run _ _ (LQ.prims (P := [.peerResp ty r]) (F := False) (x := .peerResp ty r) (by simp) rfl nofun)
    { s with trace := [] }
  have hmem : .advance n ∈ ((Input.peerResp ty r).run { s with trace := [] }).2.trace := by
    cases hs with
    | run hrun => rw [hrun]; exact ha
    | survive hrun => rw [hrun]; exact ha
    | crash hp => exact hp.subset ha
  generalize ((Input.peerResp ty r).run { s with trace := [] }).2 = s' at *
  obtain ⟨es', ht, hadv'⟩ := hadv.trace
  rw [List.nil_append] at ht
  rw [ht] at hmem
  obtain ⟨hn, hmaj⟩ := hadv' n hmem
  have hm' : MInv (xs ++ [.peerResp ty r]) s' :=
    hq.2 (MInv.keys (s := s) rfl rfl (hm.1.mono fun y hy => List.mem_append_left _ hy))
  obtain ⟨V, v1, v2, v3⟩ := nodup_holders hm' n hn
  have hlen : s'.peers.length = s.peers.length := by
    have := congrArg List.length (hl.peers rfl)
    simpa using this
  have hid : s'.id = c.id := hl.id.trans hm.2
  have hlog : s'.log = s.log := hadv.log
  refine ⟨V, v1, ?_, ?_⟩
  · rw [v2, ← hlen]; exact hmaj
  · rw [hid, hlog] at v3; exact v3

/-- An accepted answer to an append request, as servers send it, is behind the last entry of the request. -/
theorem accepted_next_index_positive (s : Srv) (r : Req) (hr : r.type = .appendReq) (hstart : 1 ≤ s.log.start)
    {q : Resp} {s' : Srv} (h : processReq r s = (.ok q, s'))
    (ha : q.accepted = true) : q.nextIdx = r.lastIdx + r.entries.length + 1 :=
  ((append_agrees s r hr hstart h).1 ha).2.2.2.1

/-- Answers of the peers of server 1. -/
def voteRespOf (src : Int) (term : Nat) (ok : Bool) : Input :=
  .peerResp .voteReq { type := .voteResp, term := term, src := src, dst := 1, accepted := ok }
/-- Answers to append requests. -/
def appendRespOf (src : Int) (term next : Nat) : Input :=
  .peerResp .appendReq { type := .appendResp, term := term, src := src, dst := 1, nextIdx := next, accepted := true }

/-- C35 is not void: server 1 is elected by server 2, appends a configuration entry, and commits it when server 3 has it. -/
example : ∃ d s fx es n', Hist node1 (Node.fresh conf3) [.electionTimeout, voteRespOf 2 1 true] fx ⟨d, some s⟩ ∧
    Node.Step node1 ⟨d, some s⟩ (some (appendRespOf 3 1 2)) es n' ∧ .advance 1 ∈ es ∧
    ∀ x ∈ [.electionTimeout, voteRespOf 2 1 true, appendRespOf 3 1 2], x.counts := by
  obtain ⟨⟨d, up⟩, fx, h, hp⟩ := Node.witness (c := node1) (n := Node.fresh conf3)
    [.start, .go .electionTimeout, .go (voteRespOf 2 1 true)]
    (fun n _ => match n.up with
      | some s => decide (Eff.advance 1 ∈ ((appendRespOf 3 1 2).run { s with trace := [] }).2.trace)
      | none => false) (by decide +kernel)
  cases up with
  | none => cases hp
  | some s =>
    refine ⟨d, s, fx, _, _, h, .crash (List.prefix_refl _), of_decide_eq_true hp, ?_⟩
    intro x hx
    simp only [List.mem_cons, List.not_mem_nil, or_false] at hx
    rcases hx with rfl | rfl | rfl
    · trivial
    · exact nofun
    · intro _ _; exact ⟨by decide, by decide⟩

/-! ## C36 -/

/-- C36 fails: server 1 has an entry of term 1 at index 1, is elected in term 2, and when server 3 reports index 1 it
advances its commit index to the entry of term 1. -/
theorem leader_commits_entry_of_earlier_term :
    ∃ d s fx es n', Hist node1 (Node.fresh conf3)
        [.req (appendReqOf 2 1 0 0 [⟨1, .app 7⟩] 0), .electionTimeout, voteRespOf 2 2 true] fx ⟨d, some s⟩ ∧
      Node.Step node1 ⟨d, some s⟩ (some (appendRespOf 3 2 2)) es n' ∧ .advance 1 ∈ es ∧
      s.role = .leader ∧ s.term = 2 ∧ (s.log.get? 1).map Entry.term = some 1 := by
  obtain ⟨⟨d, up⟩, fx, h, hp⟩ := Node.witness (c := node1) (n := Node.fresh conf3)
    [.start, .go (.req (appendReqOf 2 1 0 0 [⟨1, .app 7⟩] 0)), .go .electionTimeout, .go (voteRespOf 2 2 true)]
    (fun n _ => match n.up with
      | some s => decide (Eff.advance 1 ∈ ((appendRespOf 3 2 2).run { s with trace := [] }).2.trace ∧
          s.role = .leader ∧ s.term = 2 ∧ (s.log.get? 1).map Entry.term = some 1)
      | none => false) (by decide +kernel)
  cases up with
  | none => cases hp
  | some s =>
    obtain ⟨h1, h2⟩ := of_decide_eq_true hp
    exact ⟨d, s, fx, _, _, h, .crash (List.prefix_refl _), h1, h2⟩

/-! ## C37 -/

/-- C37, without invitations to join: when a server takes the leader role in term `t`, distinct servers, more than half of
the configured number, have voted for it: itself, and servers whose answers granted the vote in term `t`. They all are
members if the membership does not change. Missing: with changes of the membership the votes of removed servers count
(`removed_server_vote_counts`). -/
theorem leader_needs_majority_partial {c : Setup} {cfg : Config} {xs : List Input} {fx es : List Eff} {d : Disk} {s : Srv}
    {n' : Node} {x : Input} {t : Nat} (h : Hist c (Node.fresh cfg) xs fx ⟨d, some s⟩)
    (hs : Node.Step c ⟨d, some s⟩ (some x) es n') (hl : .lead t ∈ es) (hj : ∀ y ∈ xs ++ [x], y.isJoin = false) :
    ∃ V : List Int, V.Nodup ∧ s.peers.length + 1 < 2 * V.length ∧
      (∀ v ∈ V, v = c.id ∨ Granted (xs ++ [x]) t v) ∧
      ((∀ y ∈ xs, y.reconfigures = false) → ∀ v ∈ V, v = c.id ∨ v ∈ s.peers.map Peer.id) := by
  obtain ⟨hi, hid⟩ := h.linv (fun y hy => hj y (List.mem_append_left _ hy)) s rfl
  have hmem : .lead t ∈ (x.run { s with trace := [] }).2.trace := by
    cases hs with
    | run hrun => rw [hrun]; exact hl
    | survive hrun => rw [hrun]; exact hl
    | crash hp => exact hp.subset hl
  by_cases hr : x.reconfigures = false
  · have hq := LQ.prims (P := xs ++ [x]) (F := ∀ y ∈ xs, y.reconfigures = false) (x := x) (by simp) (hj x (by simp))
      (fun _ => hr)
    have hm : LInv (xs ++ [x]) (∀ y ∈ xs, y.reconfigures = false) { s with trace := [] } :=
      hi.mono (fun y hy => List.mem_append_left _ hy) fun h => h
    obtain ⟨es', ht, hlead⟩ := (@gq_run _ x hq { s with trace := [] }).lead hm
    rw [ht, List.nil_append] at hmem
    obtain ⟨_, V, v1, v2, v3, v4⟩ := hlead t hmem
    exact ⟨V, v1, v2, hid ▸ v3, hid ▸ v4⟩
  · have hq := LQ.prims (P := xs ++ [x]) (F := False) (x := x) (by simp) (hj x (by simp)) nofun
    have hm : LInv (xs ++ [x]) False { s with trace := [] } :=
      hi.mono (fun y hy => List.mem_append_left _ hy) nofun
    obtain ⟨es', ht, hlead⟩ := (@gq_run _ x hq { s with trace := [] }).lead hm
    rw [ht, List.nil_append] at hmem
    exact absurd (hlead t hmem).1 hr

/-- The hypotheses can be met: server 1 is elected by server 2. -/
example : ∃ d s fx es n', Hist node1 (Node.fresh conf3) [.electionTimeout] fx ⟨d, some s⟩ ∧
    Node.Step node1 ⟨d, some s⟩ (some (voteRespOf 2 1 true)) es n' ∧ .lead 1 ∈ es := by
  obtain ⟨⟨d, up⟩, fx, h, hp⟩ := Node.witness (c := node1) (n := Node.fresh conf3) [.start, .go .electionTimeout]
    (fun n _ => match n.up with
      | some s => decide (Eff.lead 1 ∈ ((voteRespOf 2 1 true).run { s with trace := [] }).2.trace)
      | none => false) (by decide +kernel)
  cases up with
  | none => cases hp
  | some s => exact ⟨d, s, fx, _, _, h, .crash (List.prefix_refl _), of_decide_eq_true hp⟩

/-- Five servers, the first four, and the first three. -/
def conf5 : Config := ⟨0, 0, [⟨1, 1⟩, ⟨2, 2⟩, ⟨3, 3⟩, ⟨4, 4⟩, ⟨5, 5⟩]⟩
def conf4 : Config := ⟨1, 0, [⟨1, 1⟩, ⟨2, 2⟩, ⟨3, 3⟩, ⟨4, 4⟩]⟩
def conf3' : Config := ⟨2, 1, [⟨1, 1⟩, ⟨2, 2⟩, ⟨3, 3⟩]⟩

/-- C37 fails when membership changes during an election: server 1 of five servers gets the vote of server 5, then applies
the configurations that remove 5 and 4. Server 2 refuses its vote, and with this answer server 1 becomes leader of
{1, 2, 3} with the votes of 1 and 5. -/
theorem removed_server_vote_counts :
    ∃ d s fx es n', Hist node1 (Node.fresh conf5)
        [.req (appendReqOf 2 1 0 0 [⟨1, .conf conf4⟩, ⟨1, .conf conf3'⟩] 2), .electionTimeout, voteRespOf 5 2 true, .apply,
         .apply] fx ⟨d, some s⟩ ∧
      Node.Step node1 ⟨d, some s⟩ (some (voteRespOf 2 2 false)) es n' ∧ .lead 2 ∈ es ∧ s.config = conf3' ∧
      s.peers.map Peer.id = [2, 3] := by
  obtain ⟨⟨d, up⟩, fx, h, hp⟩ := Node.witness (c := node1) (n := Node.fresh conf5)
    [.start, .go (.req (appendReqOf 2 1 0 0 [⟨1, .conf conf4⟩, ⟨1, .conf conf3'⟩] 2)), .go .electionTimeout,
     .go (voteRespOf 5 2 true), .go .apply, .go .apply]
    (fun n _ => match n.up with
      | some s => decide (Eff.lead 2 ∈ ((voteRespOf 2 2 false).run { s with trace := [] }).2.trace ∧
          s.config = conf3' ∧ s.peers.map Peer.id = [2, 3])
      | none => false) (by decide +kernel)
  cases up with
  | none => cases hp
  | some s =>
    obtain ⟨h1, h2⟩ := of_decide_eq_true hp
    exact ⟨d, s, fx, _, _, h, .crash (List.prefix_refl _), h1, h2⟩

end Cs.Raft
