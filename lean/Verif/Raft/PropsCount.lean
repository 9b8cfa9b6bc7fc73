import Verif.Raft.PropsOwn
import Verif.Raft.PropsRace
import Verif.Raft.Stand
import Verif.Raft.Steps

/-!
# Which entries a leader may commit by counting (C36)

The code commits by counting whatever the term of the entry is (`leader_commits_entry_of_earlier_term`). But this can only happen to
entries that were in the log when the server became leader.
-/

namespace Cs.Raft
open Cs

theorem heard_catchingUp (s : Srv) (r : Req) : (s.heard r).catchingUp = s.catchingUp := by
  unfold Srv.heard; split
  · split <;> rfl
  · rfl

theorem heard_term_gt {s : Srv} {r : Req} (h : r.type = .appendReq) (ht : s.term < r.term) : (s.heard r).term = r.term := by
  unfold Srv.heard
  rw [if_pos (.inl h), if_pos ht]
  rfl

theorem heard_le {s : Srv} {r : Req} (h : r.type = .appendReq) (ht : ¬ s.term < r.term) :
    (s.heard r).term = s.term ∧ (s.heard r).role = s.role := by
  unfold Srv.heard
  rw [if_pos (.inl h), if_neg ht]
  exact ⟨rfl, rfl⟩

theorem kp_termForLog (i : Nat) : Pres NoNew (termForLog i) := by
  unfold termForLog termAt
  pres noNewPo using kp_die

theorem kp_logOkay (r : Req) : Pres NoNew (logOkay r) := by
  unfold logOkay
  pres noNewPo using kp_termForLog

/-- A server takes no entries from an append request of an earlier term. -/
theorem old_entries_refused {s : Srv} {r : Req} (h : r.term < s.term) : NoNew s (handleAppendEntries r s).2 := by
  unfold handleAppendEntries
  have h1 : hearLeader r s = (.ok ⟨⟩, s) := by
    unfold hearLeader
    rw [bind_get, if_neg (by omega)]
    rfl
  rw [run_bind_ok h1, bind_get]
  have h2 := kp_logOkay r s
  rw [run_bind]
  rcases hm : logOkay r s with ⟨e | ok, s1⟩
  · rw [hm] at h2; exact h2
  · rw [hm] at h2
    show NoNew s ((if r.term < s.term ∨ ok = false then _ else _ : R Resp) s1).2
    rw [if_pos (.inl h)]
    exact h2

/-- A pack is for a server that joins. -/
theorem pack_refused {s : Srv} {r : Req} (h : s.catchingUp = false) : NoNew s (handleLogSync r s).2 := by
  unfold handleLogSync
  rw [bind_get]
  generalize r.entries = es
  rcases es with _ | ⟨⟨t, v⟩, _ | ⟨e, es⟩⟩
  · exact noNewPo.refl s
  · cases v
    case logPack =>
      show NoNew s ((if s.catchingUp = false then _ else _ : R Resp) s).2
      rw [if_pos h]
      exact noNewPo.refl s
    all_goals exact noNewPo.refl s
  · cases v <;> exact noNewPo.refl s

/-- What a leader that goes on in its term adds to its log has this term. -/
theorem leader_step_own {s : Srv} {x : Input} (hj : x.isJoin = false) (hl : s.role = .leader) (hc : s.catchingUp = false)
    (hv : Lives (x.run s).1) (ht : (x.run s).2.term = s.term) : NewByLeader s (x.run s).2 := by
  by_cases hb : x.brings
  · cases x with
    | req r =>
      rcases hb with hr | hr
      · by_cases h1 : s.term < r.term
        · exfalso
          have h2 : Stay (s.heard r) ((Input.run (.req r) s)).2 := by
            show Stay (s.heard r) ((processReq r >>= fun resp => emit (.reply resp)) s).2
            have h3 := rl_dispatch r (by rw [hr]; decide) (s.heard r)
            rw [run_bind, run_processReq]
            rcases hm : dispatch r (s.heard r) with ⟨e | a, s1⟩
            · rw [hm] at h3; exact h3
            · rw [hm] at h3; exact stayPo.trans h3 (rl_emit _ s1)
          have := h2.1
          rw [heard_term_gt hr h1, ht] at this
          omega
        · by_cases h2 : r.term = s.term
          · rw [append_of_own_term_kills s r hr hl h2] at hv
            rcases hv with ⟨_, h⟩ | h <;> cases h
          · have h3 : NoNew s (processReq r s).2 := by
              rw [run_processReq]
              unfold dispatch
              rw [hr]
              have h4 := old_entries_refused (s := s.heard r) (r := r) (by rw [(heard_le hr h1).1]; omega)
              intro k e hk
              rw [← heard_log s r]
              exact h4 k e hk
            intro k e hk
            refine .inl (h3 k e ?_)
            have h5 : ((processReq r >>= fun resp => emit (.reply resp)) s).2.log = (processReq r s).2.log := by
              rw [run_bind]
              rcases hm : processReq r s with ⟨e | a, s1⟩ <;> rfl
            rw [← h5]; exact hk
      · have h3 : NoNew s (processReq r s).2 := by
          rw [run_processReq]
          unfold dispatch handleExtended
          rw [hr]
          have h4 := pack_refused (s := s.heard r) (r := r) (by rw [heard_catchingUp]; exact hc)
          intro k e hk
          rw [← heard_log s r]
          exact h4 k e hk
        intro k e hk
        refine .inl (h3 k e ?_)
        have h5 : ((processReq r >>= fun resp => emit (.reply resp)) s).2.log = (processReq r s).2.log := by
          rw [run_bind]
          rcases hm : processReq r s with ⟨e | a, s1⟩ <;> rfl
        rw [← h5]; exact hk
    | _ => exact hb.elim
  · exact only_leader_adds_partial s x hb fun _ => hl

theorem serve_cons {s s' : Srv} {x : Input} {xs : List Input} (h : s.serve (x :: xs) = some s') :
    ∃ s1, Lives (x.run { s with trace := [] }).1 ∧ (x.run { s with trace := [] }).2 = s1 ∧ s1.serve xs = some s' := by
  unfold Srv.serve at h
  rcases hr : x.run { s with trace := [] } with ⟨e | u, t⟩
  · rw [hr] at h
    cases e with
    | thrown => exact ⟨t, .inr rfl, rfl, h⟩
    | exit c => cases h
    | ub => cases h
  · rw [hr] at h
    exact ⟨t, .inl ⟨u, rfl⟩, rfl, h⟩

theorem serve_own : ∀ (xs : List Input) {s s' : Srv}, s.serve xs = some s' → (∀ x ∈ xs, x.isJoin = false) → s.role = .leader →
    s.catchingUp = false → s'.term = s.term →
    ∀ k e, s'.log.get? k = some e → s.log.get? k = some e ∨ e.term = s.term
  | [], s, s', h, _, _, _, _ => by cases h; exact fun k e hk => .inl hk
  | x :: xs, s, s', h, hx, hl, hc, ht => by
    obtain ⟨s1, hv, rfl, h2⟩ := serve_cons h
    have hj := hx x (List.mem_cons_self ..)
    have hx' : ∀ y ∈ xs, y.isJoin = false := fun y hy => hx y (List.mem_cons_of_mem _ hy)
    have a1 : Stay { s with trace := [] } _ := rl_run x hj { s with trace := [] }
    have a2 := Srv.serve_stay xs h2 hx'
    have e1 : (x.run { s with trace := [] }).2.term = s.term := by
      have := a1.1
      have := a2.1
      have : ({ s with trace := [] } : Srv).term = s.term := rfl
      omega
    have b := (sd_run (P := s.params) hj { s with trace := [] } hv ⟨rfl, hc⟩).1
    have c := leader_step_own (s := { s with trace := [] }) hj hl hc hv e1
    intro k e hk
    rcases serve_own xs h2 hx' (a1.2 hl e1) b.2 (ht.trans e1.symm) k e hk with g | g
    · rcases c k e g with g | ⟨-, g⟩
      · exact .inl g
      · exact .inr (g.trans e1)
    · exact .inr (g.trans e1)

/-- **C36, partial**: as long as a leader stays leader of its term, whatever it handles, an entry that it commits behind the log it had
before it was elected has its term. `s` is the state before the election, `x` what made it leader.
Missing: the entries it had before the election; there the property fails, `leader_commits_entry_of_earlier_term`. -/
theorem commits_own_term_partial (s s1 s' : Srv) (x : Input) (xs : List Input) (hb : ¬ x.brings) (ho : ¬ x.onChange)
    (h1 : s.serve [x] = some s1) (hl : s1.role = .leader) (hc : s1.catchingUp = false) (h : s1.serve xs = some s')
    (hx : ∀ y ∈ xs, y.isJoin = false) (ht : s'.term = s1.term) (n : Nat) (e : Entry) (hn : s.log.next ≤ n) (hq : s'.quickCommit = n)
    (he : s'.log.get? n = some e) : e.term = s'.term := by
  obtain ⟨s2, -, rfl, h2⟩ := serve_cons h1
  cases h2
  subst hq
  rcases serve_own xs h hx hl hc ht _ _ he with g | g
  · rcases only_leader_adds_partial _ x hb (fun h => (ho h).elim) _ _ g with g | ⟨-, g⟩
    · have : s'.quickCommit < s.log.next := (Log.get?_lt g).2
      omega
    · exact g.trans ht.symm
  · exact g.trans ht.symm

/-- The same for all entries behind the log of the election, committed or not. -/
theorem leader_log_own_term (s s' : Srv) (xs : List Input) (hl : s.role = .leader) (hc : s.catchingUp = false)
    (h : s.serve xs = some s') (hx : ∀ y ∈ xs, y.isJoin = false) (ht : s'.term = s.term) (n : Nat) (e : Entry) (hn : s.log.next ≤ n)
    (he : s'.log.get? n = some e) : e.term = s'.term := by
  rcases serve_own xs h hx hl hc ht _ _ he with g | g
  · have := (Log.get?_lt g).2
    omega
  · exact g.trans ht.symm

/-- Server 1 has an entry of term 1, is elected in term 2, and appends its first configuration and a command, both of which it commits. -/
example : ∃ s s1 s', started.serve [.req (appendReqOf 2 1 0 0 [⟨1, .app 7⟩] 0), .electionTimeout] = some s ∧ s.log.next = 2 ∧
    s.serve [voteRespOf 2 2 true] = some s1 ∧ s1.role = .leader ∧ s1.catchingUp = false ∧
    s1.serve [cliReq 9, appendRespOf 3 2 4] = some s' ∧ s'.term = s1.term ∧ s'.quickCommit = 3 ∧
    s'.log.get? 3 = some ⟨2, .app 9⟩ := by
  obtain ⟨s, h, hp⟩ := serve_check (s := started) (xs := [.req (appendReqOf 2 1 0 0 [⟨1, .app 7⟩] 0), .electionTimeout])
    (P := fun s => decide (s.log.next = 2) && (match s.serve [voteRespOf 2 2 true] with
      | some s1 => decide (s1.role = .leader ∧ s1.catchingUp = false) && (match s1.serve [cliReq 9, appendRespOf 3 2 4] with
        | some s' => decide (s'.term = s1.term ∧ s'.quickCommit = 3 ∧ s'.log.get? 3 = some ⟨2, .app 9⟩)
        | none => false)
      | none => false)) (by decide +kernel)
  rw [Bool.and_eq_true] at hp
  cases h1 : s.serve [voteRespOf 2 2 true] with
  | none => rw [h1] at hp; cases hp.2
  | some s1 =>
    rw [h1] at hp
    have hp2 := hp.2
    rw [Bool.and_eq_true] at hp2
    cases h2 : s1.serve [cliReq 9, appendRespOf 3 2 4] with
    | none => rw [h2] at hp2; cases hp2.2
    | some s' =>
      rw [h2] at hp2
      have a := of_decide_eq_true hp2.1
      have b := of_decide_eq_true hp2.2
      exact ⟨s, s1, s', h, of_decide_eq_true hp.1, h1, a.1, a.2, h2, b⟩

end Cs.Raft
