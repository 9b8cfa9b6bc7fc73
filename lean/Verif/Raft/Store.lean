import Verif.Raft.Steps

/-!
# Closed form of storing the entries of an append request
-/

namespace Cs.Raft
open Cs

/-! ## Log facts -/

theorem Log.get?_eq_none {l : Log} {i : Nat} (h : l.next ≤ i) : l.get? i = none := by
  unfold Log.get? Log.next at *
  split
  · rfl
  · rw [List.getElem?_eq_none]; omega

theorem Log.get?_lt {l : Log} {i : Nat} {e : Entry} (h : l.get? i = some e) : l.start ≤ i ∧ i < l.next := by
  unfold Log.get? at h
  split at h
  · cases h
  · obtain ⟨h1, _⟩ := List.getElem?_eq_some_iff.1 h
    unfold Log.next; omega

theorem Log.get?_some {l : Log} {i : Nat} (h1 : l.start ≤ i) (h2 : i < l.next) : ∃ e, l.get? i = some e := by
  unfold Log.get? Log.next at *
  rw [if_neg (by omega), List.getElem?_eq_getElem (by omega)]
  exact ⟨_, rfl⟩

theorem termAt_some {s : Srv} {i : Nat} {e : Entry} (h : s.log.get? i = some e) : termAt i s = (.ok e.term, s) := by
  unfold termAt
  rw [bind_get, h]; rfl

theorem entryAt_some {s : Srv} {i : Nat} {e : Entry} (h : s.log.get? i = some e) : entryAt i s = (.ok e, s) := by
  unfold entryAt
  rw [bind_get, h]; rfl
theorem entryToApply_some {s : Srv} {i : Nat} {e : Entry} (h : s.log.get? i = some e) :
    entryToApply i s = (.ok e, s) := by
  unfold entryToApply
  rw [bind_get, h]; rfl
theorem entryToApply_none {s : Srv} {i : Nat} (h : s.log.get? i = none) :
    (i < s.log.start ∧ entryToApply i s = (.error (.exit (-1)), { s with trace := s.trace ++ [.exit (-1)] })) ∨
    (s.log.start ≤ i ∧ entryToApply i s = (.error .ub, s)) := by
  unfold entryToApply
  rw [bind_get, h]
  by_cases h1 : i < s.log.start
  · left; refine ⟨h1, ?_⟩; show (if i < s.log.start then die (-1) else throw .ub : R Entry) s = _; rw [if_pos h1]; rfl
  · right; refine ⟨by omega, ?_⟩; show (if i < s.log.start then die (-1) else throw .ub : R Entry) s = _; rw [if_neg h1]; rfl

/-- How many of the entries the log has already (by term) from index `i` on. -/
def matchLen (l : Log) (i : Nat) : List Entry → Nat
  | [] => 0
  | e :: es => match l.get? i with
    | some x => if x.term = e.term then matchLen l (i + 1) es + 1 else 0
    | none => 0

theorem matchLen_le (l : Log) : ∀ (i : Nat) (es : List Entry), matchLen l i es ≤ es.length
  | _, [] => Nat.le_refl _
  | i, e :: es => by
    unfold matchLen
    have := matchLen_le l (i + 1) es
    split
    · split
      · simpa using this
      · simp
    · simp

theorem matchLen_agree (l : Log) : ∀ (i : Nat) (es : List Entry) (k : Nat), k < matchLen l i es →
    ∃ x y, l.get? (i + k) = some x ∧ es[k]? = some y ∧ x.term = y.term
  | i, [], k, h => by unfold matchLen at h; omega
  | i, e :: es, k, h => by
    unfold matchLen at h
    rcases hg : l.get? i with _ | x
    · rw [hg] at h; simp at h
    · rw [hg] at h
      simp only [] at h
      by_cases ht : x.term = e.term
      · rw [if_pos ht] at h
        cases k with
        | zero => exact ⟨x, e, hg, rfl, ht⟩
        | succ k =>
          obtain ⟨x', y, h1, h2, h3⟩ := matchLen_agree l (i + 1) es k (by omega)
          exact ⟨x', y, by rw [← h1]; congr 1; omega, by simpa using h2, h3⟩
      · rw [if_neg ht] at h; omega

/-- The first entry that is not there differs from the one the log has at its index. -/
theorem matchLen_stop (l : Log) : ∀ (i : Nat) (es : List Entry) (x y : Entry),
    l.get? (i + matchLen l i es) = some x → es[matchLen l i es]? = some y → x.term ≠ y.term
  | i, [], x, y, _, h => by simp [matchLen] at h
  | i, e :: es, x, y, h1, h2 => by
    unfold matchLen at h1 h2
    rcases hg : l.get? i with _ | z
    · rw [hg] at h1; simp only [Nat.add_zero] at h1; rw [hg] at h1; cases h1
    · rw [hg] at h1 h2
      simp only [] at h1 h2
      by_cases ht : z.term = e.term
      · rw [if_pos ht] at h1 h2
        refine matchLen_stop l (i + 1) es x y ?_ (by simpa using h2)
        rw [← h1]; congr 1; omega
      · rw [if_neg ht] at h1 h2
        simp only [Nat.add_zero] at h1
        rw [hg] at h1
        cases h1
        simp only [List.getElem?_cons_zero, Option.some.injEq] at h2
        cases h2
        exact ht

theorem run_skipSame {s : Srv} : ∀ (es : List Entry) (i : Nat), s.log.start ≤ i →
    skipSame i es s = (.ok (i + matchLen s.log i es, es.drop (matchLen s.log i es)), s)
  | [], i, _ => rfl
  | e :: es, i, h => by
    unfold skipSame matchLen
    rw [bind_get]
    by_cases hn : i < s.log.next
    · rw [if_pos hn]
      obtain ⟨x, hx⟩ := Log.get?_some h hn
      rw [run_bind_ok (termAt_some hx), hx]
      simp only []
      by_cases ht : x.term = e.term
      · rw [if_pos ht, if_pos ht, run_skipSame es (i + 1) (by omega)]
        congr 3
        · omega
      · rw [if_neg ht, if_neg ht]; rfl
    · rw [if_neg hn, Log.get?_eq_none (by omega)]; rfl

/-! ## New and old entries -/

/-- What is reported about a new entry. -/
def noteFx (i : Nat) (e : Entry) : List Eff := if e.isApp then [.preCommit i e] else []
/-- What is reported about an entry that is overwritten. -/
def rollFx (i : Nat) (e : Entry) : List Eff := if e.isApp then [.rollback i e] else []

theorem run_noteNew (i : Nat) (e : Entry) (s : Srv) : noteNew i e s =
    (.ok ⟨⟩, { s with configChanging := s.configChanging || e.isConf, trace := s.trace ++ noteFx i e }) := by
  unfold noteNew noteFx
  rcases e with ⟨t, v⟩
  cases v <;> simp only [Entry.isApp, Entry.isConf, if_true, Bool.or_false, Bool.or_true, Bool.false_eq_true, if_false,
    List.append_nil] <;> rfl

theorem run_rollbackOld {i : Nat} {s : Srv} {e : Entry} (h : s.log.get? i = some e) : rollbackOld i s =
    (.ok ⟨⟩, { s with configChanging := s.configChanging && !e.isConf, trace := s.trace ++ rollFx i e }) := by
  unfold rollbackOld rollFx
  rw [run_bind_ok (entryAt_some h)]
  rcases e with ⟨t, v⟩
  cases v <;> simp only [Entry.isApp, Entry.isConf, if_true, Bool.and_true, Bool.and_false, Bool.not_false, Bool.not_true,
    Bool.false_eq_true, if_false, List.append_nil] <;> rfl

/-- Effects of appending entries from index `i` on. -/
def appendFx (i : Nat) : List Entry → List Eff
  | [] => []
  | e :: es => .append e :: noteFx i e ++ appendFx (i + 1) es

theorem Log.next_append (l : Log) (e : Entry) : (l.append e).next = l.next + 1 := by
  unfold Log.append Log.next; simp; omega

theorem run_appendNew : ∀ (es : List Entry) (s : Srv), appendNew es s =
    (.ok ⟨⟩, { s with
      log := { s.log with ents := s.log.ents ++ es }, configChanging := s.configChanging || es.any Entry.isConf,
      trace := s.trace ++ appendFx s.log.next es })
  | [], s => by
    unfold appendNew appendFx
    simp only [List.append_nil, List.any_nil, Bool.or_false]
    rfl
  | e :: es, s => by
    unfold appendNew
    rw [bind_get]
    have h1 : logAppend e s = (.ok ⟨⟩, { s with log := s.log.append e, trace := s.trace ++ [.append e] }) := rfl
    rw [run_bind_ok h1, run_bind_ok (run_noteNew _ _ _), run_appendNew es]
    simp only [Log.next_append, appendFx, List.any_cons, Bool.or_assoc, List.append_assoc, List.cons_append,
      List.nil_append]
    simp only [Log.append, List.append_assoc, List.cons_append, List.nil_append]

/-- Effects and result of overwriting index `i`. -/
theorem run_overwriteOld_lt {i : Nat} {e x : Entry} {es : List Entry} {s : Srv} (h : s.log.get? i = some x) :
    overwriteOld i (e :: es) s = (.ok es, { s with
      log := s.log.replaceFrom i [e], configChanging := (s.configChanging && !x.isConf) || e.isConf,
      trace := s.trace ++ (rollFx i x ++ .writeAt i e :: noteFx i e) }) := by
  have hl := Log.get?_lt h
  unfold overwriteOld
  rw [bind_get, if_pos hl.2, run_bind_ok (run_rollbackOld h)]
  have h1 : ∀ s : Srv, logWriteAt i e s =
    (.ok ⟨⟩, { s with log := s.log.replaceFrom i [e], trace := s.trace ++ [.writeAt i e] }) := fun _ => rfl
  rw [run_bind_ok (h1 _), run_bind_ok (run_noteNew _ _ _)]
  have hn : (s.log.replaceFrom i [e]).next = i + 1 := by
    unfold Log.replaceFrom Log.next at *
    simp only [List.length_append, List.length_take, List.length_singleton]
    omega
  have h2 : ∀ (s : Srv), s.log.next = i + 1 → overwriteOld (i + 1) es s = (.ok es, s) := by
    intro s hs
    cases es with
    | nil => rfl
    | cons a as => unfold overwriteOld; rw [bind_get, if_neg (by omega)]; rfl
  rw [h2 _ hn]
  simp only [List.append_assoc, List.singleton_append]

theorem run_overwriteOld_ge {i : Nat} {es : List Entry} {s : Srv} (h : s.log.next ≤ i) :
    overwriteOld i es s = (.ok es, s) := by
  cases es with
  | nil => rfl
  | cons a as => unfold overwriteOld; rw [bind_get, if_neg (by omega)]; rfl

/-- The log after entries have been stored from index `i` on. -/
def Log.store (l : Log) (i : Nat) (es : List Entry) : Log :=
  if es.length ≤ matchLen l i es then l
  else l.replaceFrom (i + matchLen l i es) (es.drop (matchLen l i es))

/-- Effects of storing entries from index `i` on. -/
def storeFx (l : Log) (i : Nat) (es : List Entry) : List Eff :=
  match es.drop (matchLen l i es) with
  | [] => []
  | e :: rest => match l.get? (i + matchLen l i es) with
    | some x => rollFx (i + matchLen l i es) x ++
        .writeAt (i + matchLen l i es) e :: noteFx (i + matchLen l i es) e ++ appendFx (i + matchLen l i es + 1) rest
    | none => appendFx (i + matchLen l i es) (e :: rest)

theorem run_storeEntries (r : Req) (s : Srv) (h1 : s.log.start ≤ r.lastIdx + 1) (h2 : r.lastIdx < s.log.next) :
    ∃ cc, storeEntries r s = (.ok ⟨⟩, { s with
      log := s.log.store (r.lastIdx + 1) r.entries, configChanging := cc,
      trace := s.trace ++ storeFx s.log (r.lastIdx + 1) r.entries }) := by
  unfold storeEntries
  rw [run_bind_ok (run_skipSame r.entries (r.lastIdx + 1) h1)]
  simp only []
  unfold storeFx Log.store
  have hle := matchLen_le s.log (r.lastIdx + 1) r.entries
  have hag := matchLen_agree s.log (r.lastIdx + 1) r.entries
  generalize hj : matchLen s.log (r.lastIdx + 1) r.entries = j at hle hag ⊢
  by_cases hlen : r.entries.length ≤ j
  · rw [if_pos hlen]
    have : r.entries.drop j = [] := List.drop_eq_nil_of_le hlen
    rw [this, run_bind_ok (show overwriteOld (r.lastIdx + 1 + j) [] s = (.ok [], s) from rfl), run_appendNew]
    simp only [List.append_nil, appendFx]
    exact ⟨_, rfl⟩
  · rw [if_neg hlen]
    have hge : r.lastIdx + 1 + j ≤ s.log.next := by
      cases j with
      | zero => omega
      | succ k =>
        obtain ⟨x, _, hx, _⟩ := hag k (by omega)
        have := (Log.get?_lt hx).2
        omega
    rcases hd : r.entries.drop j with _ | ⟨e, rest⟩
    · exact absurd (List.drop_eq_nil_iff.1 hd) hlen
    simp only []
    rcases hg : s.log.get? (r.lastIdx + 1 + j) with _ | x
    · have hn : s.log.next ≤ r.lastIdx + 1 + j := by
        rcases Nat.lt_or_ge (r.lastIdx + 1 + j) s.log.next with h | h
        · obtain ⟨y, hy⟩ := Log.get?_some (l := s.log) (i := r.lastIdx + 1 + j) (by omega) h
          rw [hy] at hg; cases hg
        · exact h
      rw [run_bind_ok (run_overwriteOld_ge hn), run_appendNew]
      have e1 : s.log.next = r.lastIdx + 1 + j := by omega
      have e2 : s.log.replaceFrom (r.lastIdx + 1 + j) (e :: rest) = { s.log with ents := s.log.ents ++ (e :: rest) } := by
        unfold Log.replaceFrom
        rw [List.take_of_length_le (by unfold Log.next at e1; omega)]
      rw [e2, e1]
      exact ⟨_, rfl⟩
    · rw [run_bind_ok (run_overwriteOld_lt hg), run_appendNew]
      have e1 : (s.log.replaceFrom (r.lastIdx + 1 + j) [e]).next = r.lastIdx + 1 + j + 1 := by
        have := Log.get?_lt hg
        unfold Log.replaceFrom Log.next at *
        simp only [List.length_append, List.length_take, List.length_singleton]
        omega
      rw [e1]
      simp only [Log.replaceFrom, List.append_assoc, List.cons_append]
      exact ⟨_, rfl⟩

end Cs.Raft
