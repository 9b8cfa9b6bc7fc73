import Verif.Raft.Store

/-!
# Closed form of handling an append request
-/

namespace Cs.Raft
open Cs

/-- `commit` of a server that is not the leader. -/
def Srv.advanced (s : Srv) (n : Nat) : Srv :=
  if s.quickCommit < n then { s with quickCommit := n, trace := s.trace ++ [.advance n] } else s

theorem run_commit {s : Srv} (h : s.role ≠ .leader) (n : Nat) : commit n s = (.ok ⟨⟩, s.advanced n) := by
  unfold commit Srv.advanced
  rw [bind_get]
  by_cases hq : s.quickCommit < n
  · rw [if_pos hq, if_pos hq, bind_modify, bind_emit, if_neg h]; rfl
  · rw [if_neg hq, if_neg hq]; rfl

/-- A server that hears from the leader of its term and is not leader itself. -/
def Srv.follows (s : Srv) : Srv := if s.role = .candidate then s.stepDown else s.rearmed

theorem follows_role {s : Srv} (h : s.role ≠ .leader) : s.follows.role = .follower := by
  unfold Srv.follows
  split
  · rfl
  · show s.role = _
    revert h; rename_i hc; revert hc
    cases s.role <;> simp
theorem follows_log (s : Srv) : s.follows.log = s.log := by unfold Srv.follows; split <;> rfl
theorem follows_term (s : Srv) : s.follows.term = s.term := by unfold Srv.follows; split <;> rfl
theorem follows_vote (s : Srv) : s.follows.vote = s.vote := by unfold Srv.follows; split <;> rfl
theorem follows_id (s : Srv) : s.follows.id = s.id := by unfold Srv.follows; split <;> rfl
theorem follows_smSnap (s : Srv) : s.follows.smSnap = s.smSnap := by unfold Srv.follows; split <;> rfl
theorem follows_termFor (s : Srv) (i : Nat) : termFor s.follows i = termFor s i := by
  unfold termFor; rw [follows_log, follows_smSnap]

theorem run_hearLeader_eq {s : Srv} {r : Req} (h : r.term = s.term) (hr : s.role ≠ .leader) :
    hearLeader r s = (.ok ⟨⟩, s.follows) := by
  unfold hearLeader Srv.follows
  rw [bind_get, if_pos h]
  revert hr
  cases hrole : s.role with
  | follower => intro _; rw [if_neg (by simp)]; exact run_restart s
  | candidate => intro _; rw [if_pos rfl]; exact run_becomeFollower s
  | leader => intro h; exact absurd rfl h

theorem run_hearLeader_lead {s : Srv} {r : Req} (h : r.term = s.term) (hr : s.role = .leader) :
    hearLeader r s = (.error (.exit (-1)), { s with trace := s.trace ++ [.exit (-1)] }) := by
  unfold hearLeader
  rw [bind_get, if_pos h]
  have key : (match s.role with
      | .candidate => becomeFollower
      | .leader => die (-1)
      | .follower => restartElectionTimer : R Unit) = die (-1) := by rw [hr]
  exact congrArg (fun m : R Unit => m s) key

theorem run_hearLeader_ne {s : Srv} {r : Req} (h : r.term ≠ s.term) : hearLeader r s = (.ok ⟨⟩, s) := by
  unfold hearLeader
  rw [bind_get, if_neg h]; rfl

/-- The three outcomes of the check of the previous entry. -/
theorem run_logOkay (r : Req) (s : Srv) :
    ((r.lastIdx = 0 ∨ (r.lastIdx < s.log.next ∧ termFor s r.lastIdx = some r.lastTerm)) ∧ logOkay r s = (.ok true, s)) ∨
    ((r.lastIdx ≠ 0 ∧ (s.log.next ≤ r.lastIdx ∨ ∃ t, termFor s r.lastIdx = some t ∧ t ≠ r.lastTerm)) ∧
      logOkay r s = (.ok false, s)) ∨
    ((r.lastIdx ≠ 0 ∧ r.lastIdx < s.log.start ∧ termFor s r.lastIdx = none) ∧
      logOkay r s = (.error (.exit (-1)), { s with trace := s.trace ++ [.exit (-1)] })) := by
  unfold logOkay
  rw [bind_get]
  by_cases h0 : r.lastIdx = 0
  · rw [if_pos h0]; exact .inl ⟨.inl h0, rfl⟩
  rw [if_neg h0]
  by_cases h1 : r.lastIdx < s.log.next
  · rw [if_pos h1]
    rcases ht : termFor s r.lastIdx with _ | t
    · right; right
      rcases termForLog_none ht with ⟨h2, h3⟩ | ⟨h2, h3, h4⟩
      · exfalso
        obtain ⟨e, he⟩ := Log.get?_some h2 h1
        unfold termFor at ht
        rw [if_neg h0, if_pos h2, he] at ht
        cases ht
      · exact ⟨⟨h0, h2, rfl⟩, run_bind_err h4⟩
    · rw [run_bind_ok (termForLog_some ht)]
      by_cases hc : r.lastTerm = t
      · left; exact ⟨.inr ⟨h1, by rw [hc]⟩, by rw [decide_eq_true hc]; rfl⟩
      · right; left; exact ⟨⟨h0, .inr ⟨t, rfl, fun h => hc h.symm⟩⟩, by rw [decide_eq_false hc]; rfl⟩
  · rw [if_neg h1]
    right; left
    exact ⟨⟨h0, .inl (by omega)⟩, rfl⟩

/-- The answer to an append request that is refused. -/
def refusal (s : Srv) (r : Req) : Resp :=
  { type := .appendResp, term := s.term, src := s.id, dst := r.src, nextIdx := s.log.next }
/-- The answer to an append request that is accepted. -/
def acceptance (s : Srv) (r : Req) : Resp :=
  { type := .appendResp, term := s.term, src := s.id, dst := r.src, nextIdx := r.lastIdx + r.entries.length + 1,
    accepted := true }

/-- A server that has accepted the entries of a request, apart from `configChanging`. -/
def Srv.stored (s : Srv) (r : Req) (cc : Bool) : Srv :=
  Srv.advanced { s with
    log := s.log.store (r.lastIdx + 1) r.entries, configChanging := cc, leader := r.src,
    trace := s.trace ++ storeFx s.log (r.lastIdx + 1) r.entries } r.commitIdx

theorem stored_log (s : Srv) (r : Req) (cc : Bool) : (s.stored r cc).log = s.log.store (r.lastIdx + 1) r.entries := by
  unfold Srv.stored Srv.advanced; split <;> rfl
theorem stored_term (s : Srv) (r : Req) (cc : Bool) : (s.stored r cc).term = s.term := by
  unfold Srv.stored Srv.advanced; split <;> rfl

/-- The outcomes of `handle_append_entries`. -/
inductive Handled (s : Srv) (r : Req) : Except Fault Resp × Srv → Prop
  /-- the previous entry is compacted and its term unknown, or the entries themselves are compacted -/
  | unknown {s1 : Srv} {e : Fault} : 1 < s.log.start → s1.log = s.log → Handled s r (.error e, s1)
  /-- an append request of the own term while leader -/
  | twoLeaders : r.term = s.term → s.role = .leader →
      Handled s r (.error (.exit (-1)), { s with trace := s.trace ++ [.exit (-1)] })
  /-- refused: an old term -/
  | stale : r.term < s.term → Handled s r (.ok (refusal s r), s)
  /-- refused: the previous entry is not there -/
  | refused : r.term = s.term → s.role ≠ .leader → r.lastIdx ≠ 0 →
      (s.log.next ≤ r.lastIdx ∨ ∃ t, termFor s r.lastIdx = some t ∧ t ≠ r.lastTerm) →
      Handled s r (.ok (refusal s r), s.follows)
  /-- accepted -/
  | accepted {cc : Bool} : r.term = s.term → s.role ≠ .leader →
      (r.lastIdx = 0 ∨ (r.lastIdx < s.log.next ∧ termFor s r.lastIdx = some r.lastTerm)) →
      (r.entries = [] ∨ s.log.start ≤ r.lastIdx + 1) →
      Handled s r (.ok (acceptance s r), s.follows.stored r cc)

theorem run_handleAppendEntries (s : Srv) (r : Req) (hstart : 1 ≤ s.log.start) (hterm : r.term ≤ s.term) :
    Handled s r (handleAppendEntries r s) := by
  unfold handleAppendEntries
  by_cases ht : r.term = s.term
  · by_cases hl : s.role = .leader
    · rw [run_bind_err (run_hearLeader_lead ht hl)]; exact .twoLeaders ht hl
    rw [run_bind_ok (run_hearLeader_eq ht hl), bind_get]
    rcases run_logOkay r s.follows with ⟨hc, h⟩ | ⟨hc, h⟩ | ⟨hc, h⟩
    · rw [run_bind_ok h, if_neg (by rw [follows_term]; simp; omega)]
      rw [follows_log, follows_termFor] at hc
      by_cases hst : r.entries = [] ∨ s.log.start ≤ r.lastIdx + 1
      · have hse : ∃ cc, storeEntries r s.follows = (.ok ⟨⟩, { s.follows with
            log := s.follows.log.store (r.lastIdx + 1) r.entries, configChanging := cc,
            trace := s.follows.trace ++ storeFx s.follows.log (r.lastIdx + 1) r.entries }) := by
          by_cases hs2 : s.log.start ≤ r.lastIdx + 1
          · exact run_storeEntries r s.follows (by rw [follows_log]; exact hs2) (by
              rw [follows_log]
              rcases hc with hc | hc
              · unfold Log.next; omega
              · exact hc.1)
          · have hnil : r.entries = [] := by
              rcases hst with h | h
              · exact h
              · exact absurd h hs2
            refine ⟨s.follows.configChanging, ?_⟩
            unfold storeEntries
            rw [hnil]
            have h1 : ∀ i, skipSame i [] s.follows = (.ok (i, []), s.follows) := fun _ => rfl
            have h2 : ∀ i, overwriteOld i [] s.follows = (.ok [], s.follows) := fun _ => rfl
            have h3 : appendNew [] s.follows = (.ok ⟨⟩, s.follows) := rfl
            rw [run_bind_ok (h1 _)]
            simp only []
            rw [run_bind_ok (h2 _), h3]
            simp only [Log.store, storeFx, matchLen, List.length_nil, Nat.le_refl, if_true, List.drop_nil, List.append_nil]
        obtain ⟨cc, hse⟩ := hse
        rw [run_bind_ok hse, bind_modify, run_bind_ok (run_commit (follows_role hl ▸ by simp) _)]
        have hacc := Handled.accepted (cc := cc) ht hl hc hst
        simp only [acceptance, Srv.stored, follows_term, follows_id] at hacc ⊢
        exact hacc
      · have h1 : r.lastIdx + 1 < s.log.start := by
          rcases Nat.lt_or_ge (r.lastIdx + 1) s.log.start with h | h
          · exact h
          · exact absurd (.inr h) hst
        rcases hes : r.entries with _ | ⟨e, es⟩
        · exact absurd (.inl hes) hst
        have h4 : storeEntries r s.follows = (.error .thrown, s.follows) := by
          unfold storeEntries
          rw [hes]
          refine run_bind_err ?_
          unfold skipSame
          rw [bind_get, if_pos (by rw [follows_log]; unfold Log.next; omega)]
          refine run_bind_err ?_
          unfold termAt
          rw [bind_get, show s.follows.log.get? (r.lastIdx + 1) = none by
            rw [follows_log]; unfold Log.get?; rw [if_pos h1]]
          rfl
        rw [run_bind_err h4]
        exact .unknown (by omega) (follows_log s)
    · rw [run_bind_ok h, if_pos (.inr rfl)]
      rw [follows_log, follows_termFor] at hc
      have := Handled.refused (r := r) ht hl hc.1 hc.2
      simp only [refusal] at this
      rw [follows_term, follows_id, follows_log]
      exact this
    · rw [run_bind_err h]; exact .unknown (by rw [follows_log] at hc; omega) (follows_log s)
  · rw [run_bind_ok (run_hearLeader_ne ht), bind_get]
    have hlt : r.term < s.term := by omega
    rcases run_logOkay r s with ⟨_, h⟩ | ⟨_, h⟩ | ⟨hc, h⟩
    · rw [run_bind_ok h, if_pos (.inl hlt)]; exact .stale hlt
    · rw [run_bind_ok h, if_pos (.inl hlt)]; exact .stale hlt
    · rw [run_bind_err h]; exact .unknown (by omega) rfl

end Cs.Raft
