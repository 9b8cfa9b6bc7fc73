import Verif.Raft.Votes
import Verif.Raft.Play
import Verif.Raft.Steps

/-!
# Terms and votes (C24 - C28)

The histories (`Hist`) are those of `Verif/Raft/Spec.lean`: any inputs in any order, crashes after any effect, restarts.
An invitation to join a cluster (`Input.isJoin`) resets term and vote; it is excluded in the positive theorems, and the
theorems after them show what it breaks.
-/

namespace Cs.Raft
open Cs

/-! ## Concrete servers for the examples -/

/-- A cluster of three. -/
def conf3 : Config := ⟨0, 0, [⟨1, 1⟩, ⟨2, 2⟩, ⟨3, 3⟩]⟩
/-- Server 1 of the cluster. -/
def node1 : Setup := { id := 1 }
/-- A vote request. -/
def voteReqOf (src : Int) (term lastTerm lastIdx : Nat) : Req :=
  { type := .voteReq, term := term, src := src, dst := 1, lastTerm := lastTerm, lastIdx := lastIdx, commitIdx := 0 }
/-- An invitation to join. -/
def joinReqOf (src : Int) (term : Nat) : Req :=
  { type := .joinReq, term := term, src := src, dst := 1, lastTerm := 0, lastIdx := 0, commitIdx := 0,
    entries := [⟨term, .conf conf3⟩] }

/-! ## C24 -/

theorem hist_vote {nm : Prop} {c : Setup} {d0 : Disk} {xs : List Input} {fx : List Eff} {n : Node}
    (h : Hist c ⟨d0, none⟩ xs fx n) (hx : ∀ x ∈ xs, x.isJoin = false ∧ (nm → x.named)) :
    n.Synced c ∧ VPath nm c.id (d0.term, d0.vote) fx (n.disk.term, n.disk.vote) := by
  induction h with
  | nil => exact ⟨by rintro s ⟨⟩, .nil⟩
  | @step n1 n2 xs fx es x _ hs ih =>
    obtain ⟨i1, i2⟩ := ih fun y hy => hx y (List.mem_append_left _ hy)
    obtain ⟨j1, j2⟩ := hs.vpath (nm := nm) i1 (by rintro y rfl; exact hx y (by simp))
    exact ⟨j1, i2.append j2⟩

theorem Hist.trans {c : Setup} {a b d : Node} {xs ys : List Input} {fx gx : List Eff} (h1 : Hist c a xs fx b)
    (h2 : Hist c b ys gx d) : Hist c a (xs ++ ys) (fx ++ gx) d := by
  induction h2 with
  | nil => simpa using h1
  | step _ hs ih => rw [← List.append_assoc, ← List.append_assoc]; exact .step ih hs

theorem term_le_step {c : Setup} {n n' : Node} {ys : List Input} {gx : List Eff} (hs : n.Synced c)
    (h : Hist c n ys gx n') (hy : ∀ y ∈ ys, y.isJoin = false) : n'.Synced c ∧ n.disk.term ≤ n'.disk.term := by
  induction h with
  | nil => exact ⟨hs, Nat.le_refl _⟩
  | @step n1 n2 xs fx es x _ st ih =>
    obtain ⟨i1, i2⟩ := ih fun y h => hy y (List.mem_append_left _ h)
    obtain ⟨j1, j2⟩ := st.vpath (nm := False) i1 (by rintro y rfl; exact ⟨hy y (by simp), False.elim⟩)
    exact ⟨j1, Nat.le_trans i2 j2.term_le⟩

/-- C24, without invitations to join: from any point of a history to any later point the saved term does not decrease, the
term in memory is the saved one whenever the server runs, and so does not decrease either. -/
theorem term_never_decreases_partial {c : Setup} {d0 : Disk} {xs ys : List Input} {fx gx : List Eff} {n n' : Node}
    (h1 : Hist c ⟨d0, none⟩ xs fx n) (h2 : Hist c n ys gx n') (hx : ∀ x ∈ xs ++ ys, x.isJoin = false) :
    n.disk.term ≤ n'.disk.term ∧ (∀ s, n.up = some s → s.term = n.disk.term) ∧
    (∀ s s', n.up = some s → n'.up = some s' → s.term ≤ s'.term) := by
  obtain ⟨i1, _⟩ := hist_vote (nm := False) h1 fun x h => ⟨hx x (List.mem_append_left _ h), False.elim⟩
  obtain ⟨j1, j2⟩ := term_le_step i1 h2 fun y h => hx y (List.mem_append_right _ h)
  refine ⟨j2, fun s hs => (i1 s hs).2.1, fun s s' hs hs' => ?_⟩
  rw [(i1 s hs).2.1, (j1 s' hs').2.1]
  exact j2

/-- A server in term 5 that hears of term 7, and one that starts an election and crashes. -/
example : ∃ n fx, Hist node1 ⟨{ config := conf3, term := 5 }, none⟩
    [.req (voteReqOf 2 7 0 0), .electionTimeout] fx n ∧ n.up.isNone = true ∧ n.disk.term = 8 := by
  obtain ⟨n, fx, h, hp⟩ := Node.witness (c := node1) (n := ⟨{ config := conf3, term := 5 }, none⟩)
    [.start, .go (.req (voteReqOf 2 7 0 0)), .crash .electionTimeout 1]
    (fun n _ => n.up.isNone && decide (n.disk.term = 8)) (by decide +kernel)
  simp only [Bool.and_eq_true, decide_eq_true_eq] at hp
  exact ⟨n, fx, h, hp⟩

/-- C24 fails for invitations to join: a server in term 5 that is invited by a server in term 3 goes back to term 3, and
saves it. -/
theorem join_lowers_term : ∃ n fx, Hist node1 ⟨{ config := conf3, term := 5 }, none⟩ [.req (joinReqOf 2 3)] fx n ∧
    n.disk.term = 3 ∧ (∃ s, n.up = some s ∧ s.term = 3) := by
  obtain ⟨n, fx, h, hp⟩ := Node.witness (c := node1) (n := ⟨{ config := conf3, term := 5 }, none⟩)
    [.start, .go (.req (joinReqOf 2 3))]
    (fun n _ => decide (n.disk.term = 3) && (match n.up with | some s => decide (s.term = 3) | none => false))
    (by decide +kernel)
  simp only [Bool.and_eq_true, decide_eq_true_eq] at hp
  refine ⟨n, fx, h, hp.1, ?_⟩
  rcases hu : n.up with _ | s
  · rw [hu] at hp; exact absurd hp.2 (by simp)
  · rw [hu] at hp; exact ⟨s, rfl, by simpa using hp.2⟩

/-! ## C25, C26 -/

/-- Votes that were announced agree with each other. -/
def OneVote (fx : List Eff) : Prop :=
  ∀ e ∈ fx, ∀ e' ∈ fx, ∀ t a b, e.vote? = some (t, a) → e'.vote? = some (t, b) → a = b

theorem VStep.vote_now {nm : Prop} {id : Int} {a b : Nat × Int} {e : Eff} (h : VStep nm id a e b) {t : Nat} {v : Int}
    (hv : e.vote? = some (t, v)) : t = b.1 := by
  cases h with
  | raise => cases hv
  | save => cases hv
  | ask ht htm hs =>
    simp only [Eff.vote?, ht, if_true, Option.some.injEq, Prod.mk.injEq] at hv
    exact hv.1.symm.trans htm
  | grant ht hacc htm hd hn =>
    simp only [Eff.vote?, ht, hacc, and_self, if_true, Option.some.injEq, Prod.mk.injEq] at hv
    exact hv.1.symm.trans htm
  | other hn =>
    exfalso
    cases e with
    | send r => simp only [Eff.vote?, if_neg hn] at hv; cases hv
    | reply r => simp only [Eff.vote?, if_neg hn] at hv; cases hv
    | _ => cases hv

theorem VStep.oneVote {id : Int} (hid : id ≠ -1) {a b : Nat × Int} {e : Eff} (h : VStep True id a e b) {fx : List Eff}
    (hk : Kept a fx) (ho : OneVote fx) : OneVote (fx ++ [e]) := by
  have hk' := h.kept hid hk
  have new : ∀ e' ∈ fx ++ [e], ∀ t v w, e.vote? = some (t, v) → e'.vote? = some (t, w) → v = w := by
    intro e' he' t v w hv hw
    have ht := h.vote_now hv
    have h1 := (hk' e (by simp) t v hv).2
    have h2 := (hk' e' he' t w hw).2
    rcases h1 with h1 | ⟨-, h1⟩
    · omega
    rcases h2 with h2 | ⟨-, h2⟩
    · omega
    exact h1.symm.trans h2
  intro e1 h1 e2 h2 t v w hv hw
  rcases List.mem_append.1 h1 with m1 | m1
  · rcases List.mem_append.1 h2 with m2 | m2
    · exact ho e1 m1 e2 m2 t v w hv hw
    · obtain rfl := List.mem_singleton.1 m2
      exact (new e1 h1 t w v hw hv).symm
  · obtain rfl := List.mem_singleton.1 m1
    exact new e2 h2 t v w hv hw

theorem VPath.oneVote {id : Int} (hid : id ≠ -1) {a b : Nat × Int} {es : List Eff} (h : VPath True id a es b) :
    ∀ {fx : List Eff}, Kept a fx → OneVote fx → OneVote (fx ++ es) := by
  induction h with
  | nil => intro fx _ ho; simpa using ho
  | @cons a b c e es h1 _ ih =>
    intro fx hk ho
    have := ih (h1.kept hid hk) (h1.oneVote hid hk ho)
    rwa [List.append_assoc] at this

/-- C25, without invitations to join: two votes a server announces for the same term are for the same candidate, in every
history with crashes and restarts. -/
theorem one_vote_per_term_partial {c : Setup} {d0 : Disk} {xs : List Input} {fx : List Eff} {n : Node}
    (h : Hist c ⟨d0, none⟩ xs fx n) (hid : c.id ≠ -1) (hx : ∀ x ∈ xs, x.isJoin = false ∧ x.named)
    {e e' : Eff} {t : Nat} {a b : Int} (he : e ∈ fx) (he' : e' ∈ fx) (hv : e.vote? = some (t, a))
    (hv' : e'.vote? = some (t, b)) : a = b := by
  obtain ⟨_, h2⟩ := hist_vote (nm := True) h fun x hm => ⟨(hx x hm).1, fun _ => (hx x hm).2⟩
  have := h2.oneVote hid (fx := []) (by intro e he; cases he) (by intro e he; cases he)
  exact this e he e' he' t a b hv hv'

/-- C26, without invitations to join: at every point of every history (a crash may happen at each of them) a vote that has
been announced is on disk: the saved term is later, or it is the term of the vote and the saved vote is that vote. -/
theorem announced_vote_is_saved_partial {c : Setup} {d0 : Disk} {xs : List Input} {fx : List Eff} {n : Node}
    (h : Hist c ⟨d0, none⟩ xs fx n) (hid : c.id ≠ -1) (hx : ∀ x ∈ xs, x.isJoin = false ∧ x.named)
    {e : Eff} {t : Nat} {a : Int} (he : e ∈ fx) (hv : e.vote? = some (t, a)) :
    t < n.disk.term ∨ t = n.disk.term ∧ n.disk.vote = a := by
  obtain ⟨_, h2⟩ := hist_vote (nm := True) h fun x hm => ⟨(hx x hm).1, fun _ => (hx x hm).2⟩
  have := h2.kept hid (fx := []) (by intro e he; cases he)
  exact (this e he t a hv).2

/-- A server votes for 2, crashes, and refuses 3 in the same term. -/
example : ∃ n fx, Hist node1 (Node.fresh conf3) [.req (voteReqOf 2 7 0 0), .req (voteReqOf 3 7 0 0)] fx n ∧
    fx.filterMap Eff.vote? = [(7, 2)] ∧ n.disk.vote = 2 := by
  obtain ⟨n, fx, h, hp⟩ := Node.witness (c := node1) (n := Node.fresh conf3)
    [.start, .crash (.req (voteReqOf 2 7 0 0)) 4, .start, .go (.req (voteReqOf 3 7 0 0))]
    (fun n fx => decide (fx.filterMap Eff.vote? = [(7, 2)]) && decide (n.disk.vote = 2)) (by decide +kernel)
  simp only [Bool.and_eq_true, decide_eq_true_eq] at hp
  exact ⟨n, fx, h, hp⟩

/-- C25 and C26 fail for invitations to join: a server votes for 2 in term 7, is invited by a server of the same term, and
then votes for 3 in term 7. -/
theorem join_allows_second_vote : ∃ n fx, Hist node1 (Node.fresh conf3)
    [.req (voteReqOf 2 7 0 0), .req (joinReqOf 2 7), .req (voteReqOf 3 7 0 0)] fx n ∧
    (∃ e ∈ fx, e.vote? = some (7, 2)) ∧ (∃ e ∈ fx, e.vote? = some (7, 3)) := by
  obtain ⟨n, fx, h, hp⟩ := Node.witness (c := node1) (n := Node.fresh conf3)
    [.start, .go (.req (voteReqOf 2 7 0 0)), .go (.req (joinReqOf 2 7)), .go (.req (voteReqOf 3 7 0 0))]
    (fun _ fx => fx.any (fun e => decide (e.vote? = some (7, 2))) && fx.any (fun e => decide (e.vote? = some (7, 3))))
    (by decide +kernel)
  simp only [Bool.and_eq_true, List.any_eq_true, decide_eq_true_eq] at hp
  exact ⟨n, fx, h, hp⟩

/-! ## C27 -/

/-- C27, for a server that knows its last entry from the log (or has none): a vote request is answered with a vote exactly if
its term is not below that of the server, the log of the candidate is at least as up to date (larger last term, or the
same and a last index at least as large), and the server has not voted for another candidate in that term. A vote leaves
the log unchanged. -/
theorem vote_granted_iff_partial (s : Srv) (r : Req) (hr : r.type = .voteReq) (hstart : 1 ≤ s.log.start)
    (hl : s.log.ents ≠ [] ∨ s.log.next ≤ 1) :
    ∃ t q s', termFor s (s.log.next - 1) = some t ∧ processReq r s = (.ok q, s') ∧ q.type = .voteResp ∧
      (q.accepted = true ↔ s.term ≤ r.term ∧ (t < r.lastTerm ∨ r.lastTerm = t ∧ s.log.next - 1 ≤ r.lastIdx) ∧
        (s.term < r.term ∨ s.vote = r.src ∨ s.vote = -1)) ∧
      (q.accepted = true → q.dst = r.src ∧ q.term = r.term ∧ s'.term = r.term ∧ s'.vote = r.src) ∧ s'.log = s.log := by
  have ht : termFor s (s.log.next - 1) = some s.log.lastTerm := by
    unfold termFor Log.lastTerm
    by_cases he : s.log.ents = []
    · rw [if_pos (by unfold Log.next at hl ⊢; rw [he] at hl ⊢; simp at hl ⊢; omega), he]; rfl
    · have hp : 0 < s.log.ents.length := List.length_pos_iff.2 he
      rw [if_neg (by unfold Log.next; omega), if_pos (by unfold Log.next; omega)]
      unfold Log.get? Log.next
      rw [if_neg (by omega), List.getLast?_eq_getElem?]
      have : s.log.start + s.log.ents.length - 1 - s.log.start = s.log.ents.length - 1 := by omega
      rw [this, List.getElem?_eq_getElem (by omega)]
      rfl
  have hty : r.type = .appendReq ∨ r.type = .voteReq ∨ r.type = .snpReq := .inr (.inl hr)
  have hd : processReq r s = handleVoteReq r (s.heard r) := by
    rw [run_processReq]; unfold dispatch; rw [hr]
  rw [run_handleVoteReq, heard_log, heard_term hty, heard_vote hty] at hd
  have hu : upToDate r s.log = true ↔ s.log.lastTerm < r.lastTerm ∨ r.lastTerm = s.log.lastTerm ∧
      s.log.next - 1 ≤ r.lastIdx := by
    unfold upToDate
    rw [Bool.or_eq_true, Bool.and_eq_true, decide_eq_true_eq, decide_eq_true_eq, decide_eq_true_eq]
  refine ⟨s.log.lastTerm, ?_⟩
  have hv : ((if s.term < r.term then -1 else s.vote) = r.src ∨ (if s.term < r.term then -1 else s.vote) = -1) ↔
      (s.term < r.term ∨ s.vote = r.src ∨ s.vote = -1) := by
    by_cases h : s.term < r.term
    · simp [h]
    · simp [h]
  have hm : r.term = max s.term r.term ↔ s.term ≤ r.term := by omega
  have hcond := and_congr hm (and_congr hu hv)
  by_cases hc : s.term ≤ r.term ∧ (s.log.lastTerm < r.lastTerm ∨ r.lastTerm = s.log.lastTerm ∧
      s.log.next - 1 ≤ r.lastIdx) ∧ (s.term < r.term ∨ s.vote = r.src ∨ s.vote = -1)
  · rw [if_pos (hcond.2 hc)] at hd
    exact ⟨_, _, ht, hd, rfl, ⟨fun _ => hc, fun _ => rfl⟩,
      fun _ => ⟨rfl, (hm.2 hc.1).symm, (hm.2 hc.1).symm, rfl⟩, rfl⟩
  · rw [if_neg fun h => hc (hcond.1 h)] at hd
    exact ⟨_, _, ht, hd, rfl, ⟨nofun, fun h => absurd h hc⟩, nofun, heard_log s r⟩

/-- A server with one entry of term 2 grants a vote to a candidate whose last entry is of term 3 and refuses one whose last
entry is of term 1, however long that log is. -/
example : let s : Srv := { id := 1, config := conf3, term := 3, log := ⟨1, [⟨2, .app 7⟩]⟩ }
    (∃ q s', processReq (voteReqOf 2 4 3 1) s = (.ok q, s') ∧ q.accepted = true) ∧
    (∃ q s', processReq (voteReqOf 2 4 1 9) s = (.ok q, s') ∧ q.accepted = false) := by
  intro s
  constructor
  · obtain ⟨t, q, s', h1, h2, h3, h4, -⟩ := vote_granted_iff_partial s (voteReqOf 2 4 3 1) rfl (by decide) (by simp [s])
    exact ⟨q, s', h2, h4.2 ⟨by decide, by cases h1; decide, by decide⟩⟩
  · obtain ⟨t, q, s', h1, h2, h3, h4, -⟩ := vote_granted_iff_partial s (voteReqOf 2 4 1 9) rfl (by decide) (by simp [s])
    refine ⟨q, s', h2, ?_⟩
    cases ha : q.accepted
    · rfl
    · exact absurd (h4.1 ha).2.1 (by cases h1; decide)

/-- The last block of a snapshot up to index 10 in term 5. -/
def snapReq10 : Req :=
  { type := .snpReq, term := 5, src := 2, dst := 1, lastTerm := 5, lastIdx := 10, commitIdx := 10,
    entries := [⟨5, .snpSync⟩], sync := some ⟨⟨10, 5, ⟨1, 0, conf3.servers⟩, 3⟩, 0, [1, 2, 3], true⟩ }

/-- C27 fails when the log is empty behind a snapshot: a server that has installed a snapshot up to index 10, whose last
entry is of term 5, votes for a candidate whose last entry is index 1 of term 1. -/
theorem vote_ignores_snapshot : ∃ n fx, Hist node1 (Node.fresh conf3) [.req snapReq10, .req (voteReqOf 3 6 1 1)] fx n ∧
    (∃ s, n.up = some s ∧ termFor s (s.log.next - 1) = some 5 ∧ s.log.next - 1 = 10) ∧
    (∃ e ∈ fx, e.vote? = some (6, 3)) := by
  obtain ⟨n, fx, h, hp⟩ := Node.witness (c := node1) (n := Node.fresh conf3)
    [.start, .go (.req snapReq10), .go (.req (voteReqOf 3 6 1 1))]
    (fun n fx => (match n.up with
      | some s => decide (termFor s (s.log.next - 1) = some 5) && decide (s.log.next - 1 = 10) | none => false) &&
      fx.any (fun e => decide (e.vote? = some (6, 3))))
    (by decide +kernel)
  rw [Bool.and_eq_true, List.any_eq_true] at hp
  obtain ⟨h1, e, he, h2⟩ := hp
  refine ⟨n, fx, h, ?_, e, he, of_decide_eq_true h2⟩
  rcases hu : n.up with _ | s
  · rw [hu] at h1; cases h1
  · rw [hu] at h1
    simp only [Bool.and_eq_true, decide_eq_true_eq] at h1
    exact ⟨s, rfl, h1⟩

/-! ## C28 -/

/-- C28, requests: handling a pre-vote request leaves the whole server unchanged. -/
theorem prevote_request_pure (s : Srv) (r : Req) (hr : r.type = .prevoteReq) :
    ∃ q, processReq r s = (.ok q, s) ∧ q.type = .prevoteResp := by
  have h1 : s.heard r = s := by unfold Srv.heard; rw [hr]; rfl
  rw [run_processReq, h1]
  have h2 : dispatch r s = handlePrevoteReq r s := by unfold dispatch handleExtended; rw [hr]
  rw [h2]
  unfold handlePrevoteReq
  rw [bind_get]
  split
  · exact ⟨_, rfl, rfl⟩
  · exact ⟨_, rfl, rfl⟩

/-- Positive answers to the running pre-vote, the server itself included, counting one more answer. -/
def prevotes (s : Srv) (r : Resp) : Nat :=
  match s.prevote with
  | some (v, n) => if r.src ∈ v then n else if r.accepted then n + 1 else n
  | none => 0

/-- C28, responses: a pre-vote response that does not complete a majority leaves everything unchanged except the pre-vote
round itself, the election timer, and the busy flag and heartbeat interval of the peer that answered. -/
theorem prevote_response_pure (s : Srv) (p : PeerRef) (ty : MsgType) (r : Resp) (hr : r.type = .prevoteResp)
    (hm : prevotes s r ≤ (s.peers.length + 1) / 2 ∨ s.prevote = none ∨ ∃ v n, s.prevote = some (v, n) ∧ r.src ∈ v) :
    ∃ s' pv ar ps j, Input.run (.extResp p ty r) s = (.ok ⟨⟩, s') ∧
      s' = { s with prevote := pv, armed := ar, peers := ps, srvToJoin := j } ∧
      ps.map Peer.cfg = s.peers.map Peer.cfg := by
  have h0 : Frame isPoll s (rpcResult p ty true s).2 ∧ (rpcResult p ty true s).1 = .ok ⟨⟩ ∧
      (rpcResult p ty true s).2.trace = s.trace := by
    unfold rpcResult
    rw [bind_get, bind_modPeer, run_modPeer]
    refine ⟨(Frame.setPeer _ s p _ ?_).trans (Frame.setPeer _ _ p _ ?_), rfl, ?_⟩
    · intro q; split <;> rfl
    · intro q; rfl
    · cases p <;> rfl
  show ∃ s' pv ar ps j, (rpcResult p ty true >>= fun _ => handleExtResp r) s = _ ∧ _
  obtain ⟨hf, hok, htr⟩ := h0
  rcases hr1 : rpcResult p ty true s with ⟨x, s1⟩
  rw [hr1] at hf hok htr
  simp only [] at hf hok htr
  subst hok
  rw [run_bind_ok hr1]
  have h2 : handleExtResp r s1 = handlePrevoteResp r s1 := by
    unfold handleExtResp; rw [bind_get, hr]
  rw [h2]
  have hlen : s1.peers.length = s.peers.length := by
    have := congrArg List.length hf.cfgs
    simpa using this
  obtain ⟨ps, j, es, rfl, hc, -, -⟩ := hf
  have hes : es = [] := by
    have : s.trace ++ es = s.trace := htr
    simpa using this
  subst hes
  simp only [List.append_nil] at hlen ⊢
  unfold handlePrevoteResp
  rw [bind_get]
  rcases hp : s.prevote with _ | ⟨v, n⟩
  · exact ⟨_, none, s.armed, ps, j, rfl, rfl, hc⟩
  · simp only []
    by_cases hv : r.src ∈ v
    · rw [if_pos hv]; exact ⟨_, some (v, n), s.armed, ps, j, rfl, rfl, hc⟩
    · rw [if_neg hv, bind_modify]
      have hm' : ¬ (ps.length + 1) / 2 < (if r.accepted = true then n + 1 else n) := by
        rcases hm with hm | hm | ⟨v', n', hm, hv'⟩
        · unfold prevotes at hm
          rw [hp] at hm
          simp only [if_neg hv] at hm
          rw [hlen]; omega
        · rw [hm] at hp; cases hp
        · rw [hm] at hp; cases hp; exact absurd hv' hv
      rw [if_neg hm']
      split
      · rw [bind_modify, run_restart]
        exact ⟨_, _, _, ps, j, rfl, rfl, hc⟩
      · exact ⟨_, _, s.armed, ps, j, rfl, rfl, hc⟩

/-- A response that does complete the majority starts an election, so the hypothesis of `prevote_response_pure` matters. -/
example :
    let s : Srv := { id := 1, config := conf3, prevote := some ([1], 1),
                     peers := [{ cfg := ⟨2, 2⟩, hbInterval := 75 }, { cfg := ⟨3, 3⟩, hbInterval := 75 }] }
    let yes : Resp := { type := .prevoteResp, term := 0, src := 2, dst := 1, accepted := true }
    let no : Resp := { type := .prevoteResp, term := 0, src := 2, dst := 1, accepted := false }
    (Input.run (.extResp (.member 2) .prevoteReq yes) s).2.term = 1 ∧
    (Input.run (.extResp (.member 2) .prevoteReq no) s).2.term = 0 ∧
    prevotes s no ≤ (s.peers.length + 1) / 2 := by
  decide +kernel

/-! ## C31 -/

/-- C31, votes: a vote request of an earlier term is refused and changes nothing (but the countdown of a server that is
leaving the cluster). -/
theorem stale_vote_refused (s : Srv) (r : Req) (hr : r.type = .voteReq) (ht : r.term < s.term) :
    ∃ q k, processReq r s = (.ok q, { s with stepsToDown := k }) ∧ q.accepted = false ∧ q.term = s.term := by
  have hd : processReq r s = handleVoteReq r (s.heard r) := by
    rw [run_processReq]; unfold dispatch; rw [hr]
  rw [hd, run_handleVoteReq]
  rcases heard_stale (s := s) (r := r) (by omega) with h | h
  · rw [h, if_neg (by omega)]; exact ⟨_, s.stepsToDown, rfl, rfl, rfl⟩
  · rw [h, if_neg (by intro hc; have := hc.1; simp only [] at this; omega)]; exact ⟨_, _, rfl, rfl, rfl⟩

/-- C31, append requests, as long as the previous index is 0, behind the end of the log, or one whose term the server
knows: refused, nothing changes. -/
theorem stale_append_refused_partial (s : Srv) (r : Req) (hr : r.type = .appendReq) (ht : r.term < s.term)
    (hi : r.lastIdx = 0 ∨ s.log.next ≤ r.lastIdx ∨ (termFor s r.lastIdx).isSome = true) :
    ∃ q k, processReq r s = (.ok q, { s with stepsToDown := k }) ∧ q.accepted = false ∧ q.term = s.term := by
  have hd : processReq r s = handleAppendEntries r (s.heard r) := by
    rw [run_processReq]; unfold dispatch; rw [hr]
  obtain ⟨k, hk⟩ : ∃ k, s.heard r = { s with stepsToDown := k } := by
    rcases heard_stale (s := s) (r := r) (by omega) with h | h
    · exact ⟨s.stepsToDown, h⟩
    · exact ⟨_, h⟩
  rw [hd, hk]
  have key : ∀ s1 : Srv, s1.term = s.term → s1.log = s.log → s1.smSnap = s.smSnap →
      ∃ q, handleAppendEntries r s1 = (.ok q, s1) ∧ q.accepted = false ∧ q.term = s1.term := by
    intro s1 e1 e2 e3
    have h1 : hearLeader r s1 = (.ok ⟨⟩, s1) := by
      unfold hearLeader; rw [bind_get, if_neg (by omega)]; rfl
    have h2 : ∃ b, logOkay r s1 = (.ok b, s1) := by
      unfold logOkay
      rw [bind_get]
      by_cases h0 : r.lastIdx = 0
      · rw [if_pos h0]; exact ⟨true, rfl⟩
      rw [if_neg h0]
      by_cases h3 : r.lastIdx < s1.log.next
      · rw [if_pos h3]
        have : (termFor s1 r.lastIdx).isSome = true := by
          have e : termFor s1 r.lastIdx = termFor s r.lastIdx := by unfold termFor; rw [e2, e3]
          rw [e]
          rw [e2] at h3
          rcases hi with h | h | h
          · exact absurd h h0
          · omega
          · exact h
        obtain ⟨t, ht⟩ := Option.isSome_iff_exists.1 this
        rw [run_bind_ok (termForLog_some ht)]
        exact ⟨_, rfl⟩
      · rw [if_neg h3]; exact ⟨false, rfl⟩
    obtain ⟨b, h2⟩ := h2
    unfold handleAppendEntries
    rw [run_bind_ok h1, bind_get, run_bind_ok h2, if_pos (.inl (by omega))]
    exact ⟨_, rfl, rfl, rfl⟩
  obtain ⟨q, h1, h2, h3⟩ := key { s with stepsToDown := k } rfl rfl rfl
  exact ⟨q, k, h1, h2, h3⟩

/-- C31, snapshot requests, for a server that is not joining: refused, nothing changes. -/
theorem stale_snapshot_refused_partial (s : Srv) (r : Req) (hr : r.type = .snpReq) (ht : r.term < s.term)
    (hc : s.catchingUp = false) :
    ∃ q k, processReq r s = (.ok q, { s with stepsToDown := k }) ∧ q.accepted = false ∧ q.term = s.term := by
  have hd : processReq r s = handleInstallSnapshot r (s.heard r) := by
    rw [run_processReq]; unfold dispatch handleExtended; rw [hr]
  obtain ⟨k, hk⟩ : ∃ k, s.heard r = { s with stepsToDown := k } := by
    rcases heard_stale (s := s) (r := r) (by omega) with h | h
    · exact ⟨s.stepsToDown, h⟩
    · exact ⟨_, h⟩
  rw [hd, hk]
  have key : ∀ s1 : Srv, s1.term = s.term → s1.catchingUp = false →
      ∃ q, handleInstallSnapshot r s1 = (.ok q, s1) ∧ q.accepted = false ∧ q.term = s1.term := by
    intro s1 e1 e2
    have h1 : hearSnapshotLeader r s1 = (.ok ⟨⟩, s1) := by
      unfold hearSnapshotLeader; rw [bind_get, if_neg (by omega)]; rfl
    unfold handleInstallSnapshot
    rw [run_bind_ok h1, bind_get, if_pos ⟨e2, by omega⟩]
    exact ⟨_, rfl, rfl, rfl⟩
  obtain ⟨q, h1, h2, h3⟩ := key { s with stepsToDown := k } rfl hc
  exact ⟨q, k, h1, h2, h3⟩

/-- A server in term 5 whose log starts at index 11, after a snapshot up to index 10. -/
def compacted : Srv :=
  { id := 1, config := conf3, term := 5, log := ⟨11, [⟨5, .app 1⟩]⟩, smSnap := some ⟨10, 5, conf3, 3⟩,
    lastSnap := some ⟨10, 5, conf3, 3⟩, quickCommit := 11, smCommit := 11 }
/-- An append request with previous entry `idx` of `lastTerm`. -/
def appendReqOf (src : Int) (term lastTerm idx : Nat) (es : List Entry) (ci : Nat) : Req :=
  { type := .appendReq, term := term, src := src, dst := 1, lastTerm := lastTerm, lastIdx := idx, commitIdx := ci,
    entries := es }

/-- The hypotheses of the three theorems can be met. -/
example : (∃ q k, processReq (appendReqOf 2 4 5 10 [] 0) compacted = (.ok q, { compacted with stepsToDown := k }) ∧
    q.accepted = false ∧ q.term = 5) ∧
    (∃ q k, processReq { snapReq10 with term := 4 } compacted = (.ok q, { compacted with stepsToDown := k }) ∧
    q.accepted = false ∧ q.term = 5) :=
  ⟨stale_append_refused_partial compacted (appendReqOf 2 4 5 10 [] 0) rfl (by decide) (.inr (.inr (by decide))),
   stale_snapshot_refused_partial compacted { snapReq10 with term := 4 } rfl (by decide) rfl⟩

/-- C31 fails for append requests that refer to a compacted part of the log: a delayed append request of term 4 makes a
server of term 5 exit. -/
theorem stale_append_kills : (Input.run (.req (appendReqOf 2 4 3 9 [] 0)) compacted).1 = .error (.exit (-1)) := by
  decide +kernel

/-- C31 fails for a server that is joining: it installs a snapshot of an earlier term. -/
theorem stale_snapshot_installed :
    (∃ q, (processReq { snapReq10 with term := 4 } { id := 1, config := conf3, term := 5, catchingUp := true }).1 = .ok q ∧
      q.accepted = true) ∧
    (processReq { snapReq10 with term := 4 } { id := 1, config := conf3, term := 5, catchingUp := true }).2.log.start =
      11 := by
  have h : (match (processReq { snapReq10 with term := 4 } { id := 1, config := conf3, term := 5, catchingUp := true }).1 with
      | .ok q => q.accepted | .error _ => false) = true := by decide +kernel
  refine ⟨?_, by decide +kernel⟩
  revert h
  generalize (processReq { snapReq10 with term := 4 } { id := 1, config := conf3, term := 5, catchingUp := true }).1 = x
  cases x with
  | error e => intro h; cases h
  | ok q => intro h; exact ⟨q, rfl, h⟩

end Cs.Raft
