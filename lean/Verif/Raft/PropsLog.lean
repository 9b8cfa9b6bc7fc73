import Verif.Raft.Accept
import Verif.Raft.PropsVote

/-!
# Append requests and client requests (C29, C30, C32)
-/

namespace Cs.Raft
open Cs

theorem Log.store_start (l : Log) (i : Nat) (es : List Entry) : (l.store i es).start = l.start := by
  unfold Log.store; split <;> rfl

theorem Log.store_below {l : Log} {i j : Nat} {es : List Entry} (hj : j < i) (hi : i ≤ l.next) :
    (l.store i es).get? j = l.get? j := by
  unfold Log.store
  split
  · rfl
  · unfold Log.replaceFrom Log.get?
    split
    · rfl
    · rename_i h
      simp only [] at h ⊢
      have hm : i + matchLen l i es ≤ l.next := by
        rcases hk : matchLen l i es with _ | k
        · omega
        · obtain ⟨x, _, hx, _⟩ := matchLen_agree l i es k (by omega)
          have := (Log.get?_lt hx).2
          omega
      rw [List.getElem?_append_left (by rw [List.length_take]; unfold Log.next at hm; omega), List.getElem?_take,
        if_pos (by omega)]

theorem Log.store_at {l : Log} {i k : Nat} {es : List Entry} {e : Entry} (hs : l.start ≤ i) (hi : i ≤ l.next)
    (he : es[k]? = some e) :
    (∃ x, l.get? (i + k) = some x ∧ x.term = e.term ∧ (l.store i es).get? (i + k) = some x) ∨
    (l.store i es).get? (i + k) = some e := by
  unfold Log.store
  have hkl : k < es.length := (List.getElem?_eq_some_iff.1 he).1
  by_cases hk : k < matchLen l i es
  · left
    obtain ⟨x, y, h1, h2, h3⟩ := matchLen_agree l i es k hk
    rw [he] at h2
    cases h2
    refine ⟨x, h1, h3, ?_⟩
    split
    · exact h1
    · have hl := Log.get?_lt h1
      unfold Log.get? at h1 ⊢
      unfold Log.replaceFrom
      rw [if_neg (by omega)] at h1
      simp only []
      rw [if_neg (by omega)]
      have hlt := (List.getElem?_eq_some_iff.1 h1).1
      rw [List.getElem?_append_left (by rw [List.length_take]; omega), List.getElem?_take, if_pos (by omega)]
      exact h1
  · right
    rw [if_neg (by omega)]
    have hm : i + matchLen l i es ≤ l.next := by
      rcases hk : matchLen l i es with _ | k
      · omega
      · obtain ⟨x, _, hx, _⟩ := matchLen_agree l i es k (by omega)
        have := (Log.get?_lt hx).2
        omega
    unfold Log.get? Log.replaceFrom
    simp only []
    unfold Log.next at hm
    rw [if_neg (by omega), List.getElem?_append_right (by rw [List.length_take]; omega), List.getElem?_drop, ← he]
    congr 1
    rw [List.length_take]
    omega

theorem Log.store_all {l : Log} {i : Nat} {es : List Entry}
    (h : ∀ k e, es[k]? = some e → ∃ x, l.get? (i + k) = some x ∧ x.term = e.term) : l.store i es = l := by
  unfold Log.store
  rw [if_pos]
  have hl := matchLen_le l i es
  rcases Nat.lt_or_ge (matchLen l i es) es.length with hlt | hge
  · obtain ⟨x, h1, h2⟩ := h (matchLen l i es) es[matchLen l i es] (List.getElem?_eq_getElem hlt)
    exact absurd h2 (matchLen_stop l i es x _ h1 (List.getElem?_eq_getElem hlt))
  · exact hge

/-- The outcomes of an append request, from the state in which it arrives. -/
theorem processAppend (s : Srv) (r : Req) (hr : r.type = .appendReq) (hstart : 1 ≤ s.log.start) :
    Handled (s.heard r) r (processReq r s) := by
  have hd : processReq r s = handleAppendEntries r (s.heard r) := by
    rw [run_processReq]; unfold dispatch; rw [hr]
  rw [hd]
  exact run_handleAppendEntries _ r (by rw [heard_log]; exact hstart)
    (by rw [heard_term (.inl hr)]; omega)

/-- C29: if an append request with previous index p and entries e1..en is accepted, then the entry at p has the term named in
the request, the log up to p is unchanged, and p+k holds an entry with the term of ek (ek itself, or the entry the log had
there already with the same term). If it is refused the log is unchanged. Indexes of a log start at 1 or later and terms of
entries at 1. -/
theorem append_agrees (s : Srv) (r : Req) (hr : r.type = .appendReq) (hstart : 1 ≤ s.log.start)
    {q : Resp} {s' : Srv} (h : processReq r s = (.ok q, s')) :
    (q.accepted = true →
      (r.lastIdx = 0 ∨ termFor s r.lastIdx = some r.lastTerm) ∧
      (∀ i, i ≤ r.lastIdx → s'.log.get? i = s.log.get? i) ∧
      (∀ k e, r.entries[k]? = some e → ∃ x, s'.log.get? (r.lastIdx + 1 + k) = some x ∧ x.term = e.term ∧
        (x = e ∨ s.log.get? (r.lastIdx + 1 + k) = some x)) ∧
      q.nextIdx = r.lastIdx + r.entries.length + 1 ∧ s'.log.start = s.log.start) ∧
    (q.accepted = false → s'.log = s.log) := by
  have hh := processAppend s r hr hstart
  rw [h] at hh
  have htf : ∀ i, termFor (s.heard r) i = termFor s i := by
    intro i; unfold termFor; rw [heard_log, heard_smSnap]
  cases hh with
  | stale => exact ⟨nofun, fun _ => heard_log s r⟩
  | refused => exact ⟨nofun, fun _ => by rw [follows_log, heard_log]⟩
  | @accepted cc ht hl hc hst =>
    refine ⟨fun _ => ?_, nofun⟩
    rw [heard_log] at hc hst
    rw [htf] at hc
    simp only [stored_log, follows_log, heard_log, Log.store_start]
    refine ⟨hc.imp id (·.2), ?_, ?_, rfl, trivial⟩
    · intro i hi
      rcases hst with hst | hst
      · rw [hst]
        rfl
      · refine Log.store_below (by omega) ?_
        rcases hc with hc | hc
        · unfold Log.next; omega
        · omega
    · intro k e hk
      have hst' : s.log.start ≤ r.lastIdx + 1 := by
        rcases hst with hst | hst
        · rw [hst] at hk; cases hk
        · exact hst
      have hn : r.lastIdx + 1 ≤ s.log.next := by
        rcases hc with hc | hc
        · unfold Log.next; omega
        · omega
      rcases Log.store_at hst' hn hk with ⟨x, h1, h2, h3⟩ | h3
      · exact ⟨x, h3, h2, .inr h1⟩
      · exact ⟨e, h3, rfl, .inl rfl⟩

/-- A follower in term 5 with three entries. -/
def follower3 : Srv :=
  { id := 1, config := conf3, term := 5, log := ⟨1, [⟨1, .app 1⟩, ⟨2, .app 2⟩, ⟨2, .app 3⟩]⟩ }

/-- The entries of an append request replace the entries of another term, and are refused when the previous entry does not
match. -/
example :
    (processReq (appendReqOf 2 5 2 2 [⟨4, .app 9⟩, ⟨5, .app 10⟩] 0) follower3).2.log =
      ⟨1, [⟨1, .app 1⟩, ⟨2, .app 2⟩, ⟨4, .app 9⟩, ⟨5, .app 10⟩]⟩ ∧
    (processReq (appendReqOf 2 5 3 2 [⟨4, .app 9⟩] 0) follower3).2.log = follower3.log := by
  decide +kernel

/-- C30: an append request all of whose entries the log has already (by term) leaves the log unchanged, whatever its
outcome. -/
theorem duplicate_append_keeps_log (s : Srv) (r : Req) (hr : r.type = .appendReq) (hstart : 1 ≤ s.log.start)
    (hd : ∀ k e, r.entries[k]? = some e → ∃ x, s.log.get? (r.lastIdx + 1 + k) = some x ∧ x.term = e.term) :
    (processReq r s).2.log = s.log := by
  have hh := processAppend s r hr hstart
  generalize processReq r s = x at hh
  cases hh with
  | unknown _ h => rw [h]; exact heard_log s r
  | twoLeaders => exact heard_log s r
  | stale => exact heard_log s r
  | refused => show (Srv.follows _).log = _; rw [follows_log, heard_log]
  | accepted => rw [stored_log, follows_log, heard_log]; exact Log.store_all hd

/-- C30, redelivery: once a request has been accepted, delivering it again, any number of times, in any later state whose
log still has what the log had then, leaves that log unchanged; in particular entries appended in between stay. -/
theorem redelivered_append_keeps_log (s s1 s2 : Srv) (r : Req) (q : Resp) (n : Nat) (hr : r.type = .appendReq)
    (hstart : 1 ≤ s.log.start) (h : processReq r s = (.ok q, s1))
    (ha : q.accepted = true) (hstart2 : 1 ≤ s2.log.start)
    (hk : ∀ i x, r.lastIdx < i → s1.log.get? i = some x → s2.log.get? i = some x) :
    (Nat.repeat (fun s => (processReq r s).2) n s2).log = s2.log := by
  have h1 := (append_agrees s r hr hstart h).1 ha
  induction n with
  | zero => rfl
  | succ n ih =>
    show (processReq r (Nat.repeat (fun s => (processReq r s).2) n s2)).2.log = _
    rw [duplicate_append_keeps_log _ r hr (by rw [ih]; exact hstart2), ih]
    rw [ih]
    intro k e hke
    obtain ⟨x, hx, ht, _⟩ := h1.2.2.1 k e hke
    exact ⟨x, hk _ x (by omega) hx, ht⟩

/-- An old request with one entry does not truncate a log that has grown since. -/
example : ∃ q s1, processReq (appendReqOf 2 5 1 1 [⟨2, .app 2⟩] 0) follower3 = (.ok q, s1) ∧ q.accepted = true ∧
    s1.log.ents.length = 3 := by
  have h : (match processReq (appendReqOf 2 5 1 1 [⟨2, .app 2⟩] 0) follower3 with
    | (.ok q, s1) => q.accepted && decide (s1.log.ents.length = 3) | _ => false) = true := by decide +kernel
  revert h
  generalize processReq (appendReqOf 2 5 1 1 [⟨2, .app 2⟩] 0) follower3 = x
  rcases x with ⟨e | q, s1⟩
  · intro h; cases h
  · intro h
    simp only [Bool.and_eq_true, decide_eq_true_eq] at h
    exact ⟨q, s1, rfl, h⟩

/-- Redelivery of an append request whose entries have been compacted away since does not truncate, but ends with an
exception (the connection is closed): the first entries of the log, delivered to a server of the same term whose log starts
at 11. -/
theorem redelivered_append_after_compaction_throws :
    (Input.run (.req (appendReqOf 2 5 0 0 [⟨1, .app 1⟩] 0)) compacted).1 = .error .thrown := by
  decide +kernel

/-! ## C32 -/

theorem run_isLeader (s : Srv) : ∃ b el, isLeader s = (.ok b, { s with elapsed := el }) ∧ (b = true → s.role = .leader) := by
  unfold isLeader
  rw [bind_get]
  split
  · rename_i h
    rw [bind_modify, bind_get]
    split
    · exact ⟨false, _, rfl, nofun⟩
    · exact ⟨_, _, rfl, fun _ => h.1⟩
  · exact ⟨_, s.elapsed, rfl, fun h => of_decide_eq_true h⟩

theorem run_appendClient : ∀ (es : List Entry) (s : Srv), ∃ fx, appendClient es s = (.ok ⟨⟩, { s with
    log := { s.log with ents := s.log.ents ++ es.map fun e => { e with term := s.term } }, trace := s.trace ++ fx })
  | [], s => ⟨[], by unfold appendClient; simp only [List.map_nil, List.append_nil]; rfl⟩
  | e :: es, s => by
    unfold appendClient
    rw [bind_get]
    have h1 : ∀ e, logAppend e s = (.ok ⟨⟩, { s with log := s.log.append e, trace := s.trace ++ [.append e] }) := fun _ => rfl
    rw [run_bind_ok (h1 _), bind_emit]
    obtain ⟨fx, h2⟩ := run_appendClient es { s with
      log := s.log.append { e with term := s.term },
      trace := s.trace ++ [.append { e with term := s.term }] ++ [.preCommit s.log.next { e with term := s.term }] }
    rw [h2]
    refine ⟨[.append { e with term := s.term }, .preCommit s.log.next { e with term := s.term }] ++ fx, ?_⟩
    simp only [Log.append, List.append_assoc, List.map_cons, List.cons_append, List.nil_append]

/-- The log is the same before and after. -/
def SameLog (s s' : Srv) : Prop := s'.log = s.log
theorem slo : PO SameLog := ⟨fun _ => rfl, fun h1 h2 => h2.trans h1⟩
theorem sameLog_of_frame {α : Type} {ty} {m : R α} (h : Pres (Frame ty) m) : Pres SameLog m := fun s => (h s).log

theorem sameLog_commit (n : Nat) : Pres SameLog (commit n) := by
  unfold commit
  pres slo using pres_modify, sameLog_of_frame (commitNotify_frame _), sameLog_of_frame (ty := isRepl) (pres_pure (Frame.po _) _)
  all_goals first
    | rfl
    | exact fun s => rfl

theorem sameLog_requestAppendAll : Pres SameLog requestAppendAll := by
  unfold requestAppendAll
  pres slo using sameLog_commit, sameLog_of_frame (requestAppendTo_frame _)
  exact fun s => rfl

/-- C32: a client request is accepted only by a server in the leader role; then its entries have been appended in order at
the end of the log, stamped with the current term, and the answer names the next free index. Otherwise the log is
unchanged. -/
theorem client_request (s : Srv) (r : Req) (hr : r.type = .clientReq) {q : Resp} {s' : Srv}
    (h : processReq r s = (.ok q, s')) :
    (q.accepted = true → s.role = .leader ∧ s'.log.start = s.log.start ∧
      s'.log.ents = s.log.ents ++ (r.entries.map fun e => { e with term := s.term }) ∧
      q.nextIdx = s.log.next + r.entries.length) ∧
    (q.accepted = false → s'.log = s.log) := by
  have h0 : s.heard r = s := by unfold Srv.heard; rw [hr]; rfl
  have hd : processReq r s = handleCliReq r s := by
    rw [run_processReq, h0]; unfold dispatch; rw [hr]
  rw [hd] at h
  unfold handleCliReq at h
  obtain ⟨b, el, hb, hlead⟩ := run_isLeader s
  rw [run_bind_ok hb, bind_get] at h
  by_cases h1 : s.role = .leader ∧ b = false
  · rw [if_pos h1] at h; cases h; exact ⟨nofun, fun _ => rfl⟩
  rw [if_neg h1] at h
  by_cases h2 : b = false
  · rw [if_pos h2] at h; cases h; exact ⟨nofun, fun _ => rfl⟩
  rw [if_neg h2] at h
  obtain ⟨fx, ha⟩ := run_appendClient r.entries { s with elapsed := el }
  rw [run_bind_ok ha] at h
  have hs := sameLog_requestAppendAll { s with
    elapsed := el, trace := s.trace ++ fx,
    log := { s.log with ents := s.log.ents ++ r.entries.map fun e => { e with term := s.term } } }
  rw [run_bind] at h
  rcases hq : requestAppendAll { s with
    elapsed := el, trace := s.trace ++ fx,
    log := { s.log with ents := s.log.ents ++ r.entries.map fun e => { e with term := s.term } } } with ⟨e | u, s2⟩
  · rw [hq] at h; cases h
  · rw [hq] at h hs
    cases h
    have hs' : s'.log = { s.log with ents := s.log.ents ++ r.entries.map fun e => { e with term := s.term } } := hs
    refine ⟨fun _ => ⟨hlead (by simpa using h2), ?_⟩, nofun⟩
    rw [hs']
    refine ⟨rfl, rfl, ?_⟩
    unfold Log.next
    simp
    omega

/-- A leader of term 5 without peers accepts two entries; a follower refuses them. -/
example :
    let leader : Srv := { id := 1, config := conf3, term := 5, role := .leader, log := ⟨1, [⟨1, .app 1⟩]⟩ }
    let req : Req := { type := .clientReq, term := 0, src := 0, dst := 0, lastTerm := 0, lastIdx := 0, commitIdx := 0,
                       entries := [⟨0, .app 8⟩, ⟨0, .app 9⟩] }
    (processReq req leader).2.log = ⟨1, [⟨1, .app 1⟩, ⟨5, .app 8⟩, ⟨5, .app 9⟩]⟩ ∧
    (processReq req { leader with role := .follower }).2.log = leader.log := by
  decide +kernel

end Cs.Raft
