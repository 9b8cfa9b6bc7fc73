import Verif.Conc.Stamp

/-!
# Time stamps of log lines (C120)
-/

namespace Cs.Stamp

/-! ## Specification -/

/-- The line shows this time. -/
def Line.Shows (cal : Nat → Nat → Int) (l : Line) (t : Nat) : Prop := l.ms = t % 1000 ∧ ∀ j, j < nFields → l.fields[j]? = some (some (cal (t / 1000) j))

/-- Seconds, minutes and hours as on a clock, and one field for the date. -/
def wallClock (sec j : Nat) : Int := match j with
  | 5 => ((sec % 60 : Nat) : Int)
  | 4 => ((sec / 60 % 60 : Nat) : Int)
  | 3 => ((sec / 3600 % 24 : Nat) : Int)
  | 1 => ((sec / 86400 : Nat) : Int)
  | _ => 0

/-- The times at which calls began, in an execution from `s`. -/
def began (cal : Nat → Nat → Int) : St → List Act → List Nat
  | _, [] => []
  | s, a :: as => (match a with | .call _ => [s.clock] | _ => []) ++ began cal (s.step cal a) as

/-! ## Proofs -/

theorem began_append (cal : Nat → Nat → Int) : ∀ (as bs : List Act) (s : St), began cal s (as ++ bs) = began cal s as ++ began cal (s.run cal as) bs
  | [], _, _ => rfl
  | a :: as, bs, s => by
    show _ ++ began cal (s.step cal a) (as ++ bs) = _ ++ began cal (s.step cal a) as ++ began cal ((s.step cal a).run cal as) bs
    rw [began_append cal as bs, List.append_assoc]

theorem run_append (cal : Nat → Nat → Int) (s : St) (as bs : List Act) : s.run cal (as ++ bs) = (s.run cal as).run cal bs := List.foldl_append

theorem get_set {l : List Pc} {k i : Nat} {p q : Pc} (h : (l.set k p)[i]? = some q) : (i = k ∧ q = p) ∨ (i ≠ k ∧ l[i]? = some q) := by
  by_cases hk : i = k
  · subst hk
    rw [List.getElem?_set] at h
    simp only [if_true] at h
    split at h
    · exact .inl ⟨rfl, (by cases h; rfl)⟩
    · cases h
  · rw [List.getElem?_set_ne (fun h => hk h.symm)] at h
    exact .inr ⟨hk, h⟩

/-- A field that was written in one of the calls. -/
def Known (cal : Nat → Nat → Int) (ts : List Nat) (j : Nat) (v : Int) : Prop := ∃ t ∈ ts, v = cal (t / 1000) j

/-- The invariant. -/
structure Inv (cal : Nat → Nat → Int) (ts : List Nat) (s : St) : Prop where
  size : s.tm.length = nFields
  writing : ∀ (k now : Nat) (done : List Bool), s.ths[k]? = some (.writing now done) → now ∈ ts ∧ done.length = nFields ∧
    ∀ j : Nat, done[j]? = some true → ∃ v, s.tm[j]? = some v ∧ Known cal ts j v
  reading : ∀ (k now : Nat) (got : List (Option Int)), s.ths[k]? = some (.reading now got) → now ∈ ts ∧ got.length = nFields ∧
    (∀ j, j < nFields → ∃ v, s.tm[j]? = some v ∧ Known cal ts j v) ∧ ∀ (j : Nat) v, got[j]? = some (some v) → Known cal ts j v
  lines : ∀ l ∈ s.queue, l.time ∈ ts ∧ l.ms = l.time % 1000 ∧ ∀ j, j < nFields → ∃ v, l.fields[j]? = some (some v) ∧ Known cal ts j v

theorem Known.mono {cal : Nat → Nat → Int} {ts ts' : List Nat} (hs : ∀ t ∈ ts, t ∈ ts') {j : Nat} {v : Int} (h : Known cal ts j v) : Known cal ts' j v := by
  obtain ⟨t, h1, h2⟩ := h
  exact ⟨t, hs t h1, h2⟩

theorem Inv.mono {cal : Nat → Nat → Int} {ts ts' : List Nat} {s : St} (h : Inv cal ts s) (hs : ∀ t ∈ ts, t ∈ ts') : Inv cal ts' s where
  size := h.size
  writing k now done hk := by
    obtain ⟨h1, h2, h3⟩ := h.writing k now done hk
    refine ⟨hs _ h1, h2, fun j hj => ?_⟩
    obtain ⟨v, h4, h5⟩ := h3 j hj
    exact ⟨v, h4, h5.mono hs⟩
  reading k now got hk := by
    obtain ⟨h1, h2, h3, h4⟩ := h.reading k now got hk
    refine ⟨hs _ h1, h2, fun j hj => ?_, fun j v hj => (h4 j v hj).mono hs⟩
    obtain ⟨v, h4, h5⟩ := h3 j hj
    exact ⟨v, h4, h5.mono hs⟩
  lines l hl := by
    obtain ⟨h1, h2, h3⟩ := h.lines l hl
    refine ⟨hs _ h1, h2, fun j hj => ?_⟩
    obtain ⟨v, h4, h5⟩ := h3 j hj
    exact ⟨v, h4, h5.mono hs⟩

/-- Writing a field keeps the fields known. -/
theorem known_set {cal : Nat → Nat → Int} {ts : List Nat} {tm : List Int} {j i now : Nat} (hnow : now ∈ ts)
    (h : ∃ v, tm[i]? = some v ∧ Known cal ts i v) : ∃ v, (tm.set j (cal (now / 1000) j))[i]? = some v ∧ Known cal ts i v := by
  obtain ⟨v, h1, h2⟩ := h
  by_cases hij : j = i
  · subst hij
    have hlt : j < tm.length := by
      rcases Nat.lt_or_ge j tm.length with h | h
      · exact h
      · rw [List.getElem?_eq_none h] at h1; cases h1
    exact ⟨_, by rw [List.getElem?_set_self hlt], now, hnow, rfl⟩
  · exact ⟨v, by rw [List.getElem?_set_ne hij]; exact h1, h2⟩

theorem Inv.step {cal : Nat → Nat → Int} {ts : List Nat} {s : St} (h : Inv cal ts s) (a : Act) :
    Inv cal (ts ++ (match a with | .call _ => [s.clock] | _ => [])) (s.step cal a) := by
  cases a with
  | tick n =>
    rw [List.append_nil]
    exact ⟨h.size, h.writing, h.reading, h.lines⟩
  | call k =>
    have h' := h.mono (ts' := ts ++ [s.clock]) (fun t ht => List.mem_append_left _ ht)
    show Inv cal (ts ++ [s.clock]) (s.call k)
    unfold St.call
    split
    · refine ⟨h'.size, fun i now done hi => ?_, fun i now got hi => ?_, h'.lines⟩
      · rcases get_set hi with ⟨-, hq⟩ | ⟨-, hq⟩
        · cases hq
          refine ⟨List.mem_append_right _ List.mem_cons_self, List.length_replicate, fun j hj => ?_⟩
          rw [List.getElem?_replicate] at hj
          split at hj <;> cases hj
        · exact h'.writing i now done hq
      · rcases get_set hi with ⟨-, hq⟩ | ⟨-, hq⟩
        · cases hq
        · exact h'.reading i now got hq
    · exact h'
  | write k j =>
    rw [List.append_nil]
    show Inv cal ts (s.write cal k j)
    unfold St.write
    split
    · rename_i now done hk
      obtain ⟨h1, h2, h3⟩ := h.writing k now done hk
      refine ⟨by rw [List.length_set]; exact h.size, fun i now' done' hi => ?_, fun i now' got hi => ?_, h.lines⟩
      · rcases get_set hi with ⟨-, hq⟩ | ⟨-, hq⟩
        · cases hq
          refine ⟨h1, by rw [List.length_set]; exact h2, fun i' hi' => ?_⟩
          by_cases hij : j = i'
          · subst hij
            have hlt : j < done.length := by
              rcases Nat.lt_or_ge j done.length with h | h
              · exact h
              · rw [List.getElem?_eq_none (by rw [List.length_set]; exact h)] at hi'; cases hi'
            exact ⟨_, by rw [List.getElem?_set_self (by rw [h.size, ← h2]; exact hlt)], now, h1, rfl⟩
          · rw [List.getElem?_set_ne hij] at hi'
            exact known_set h1 (h3 i' hi')
        · obtain ⟨g1, g2, g3⟩ := h.writing i now' done' hq
          exact ⟨g1, g2, fun i' hi' => known_set h1 (g3 i' hi')⟩
      · rcases get_set hi with ⟨-, hq⟩ | ⟨-, hq⟩
        · cases hq
        · obtain ⟨g1, g2, g3, g4⟩ := h.reading i now' got hq
          exact ⟨g1, g2, fun i' hi' => known_set h1 (g3 i' hi'), g4⟩
    · exact h
  | next k =>
    rw [List.append_nil]
    show Inv cal ts (s.next k)
    unfold St.next
    split
    · rename_i now done hk
      obtain ⟨h1, h2, h3⟩ := h.writing k now done hk
      split
      · rename_i hall
        refine ⟨h.size, fun i now' done' hi => ?_, fun i now' got hi => ?_, h.lines⟩
        · rcases get_set hi with ⟨-, hq⟩ | ⟨-, hq⟩
          · cases hq
          · exact h.writing i now' done' hq
        · rcases get_set hi with ⟨-, hq⟩ | ⟨-, hq⟩
          · cases hq
            refine ⟨h1, List.length_replicate, fun j hj => h3 j ?_, fun j v hj => ?_⟩
            · have hlt : j < done.length := by rw [h2]; exact hj
              rw [List.getElem?_eq_getElem hlt]
              exact congrArg some (List.all_eq_true.mp hall _ (List.getElem_mem hlt))
            · rw [List.getElem?_replicate] at hj
              split at hj <;> cases hj
          · exact h.reading i now' got hq
      · exact h
    · exact h
  | read k j =>
    rw [List.append_nil]
    show Inv cal ts (s.read k j)
    unfold St.read
    split
    · rename_i now got hk
      obtain ⟨h1, h2, h3, h4⟩ := h.reading k now got hk
      refine ⟨h.size, fun i now' done' hi => ?_, fun i now' got' hi => ?_, h.lines⟩
      · rcases get_set hi with ⟨-, hq⟩ | ⟨-, hq⟩
        · cases hq
        · exact h.writing i now' done' hq
      · rcases get_set hi with ⟨-, hq⟩ | ⟨-, hq⟩
        · cases hq
          refine ⟨h1, by rw [List.length_set]; exact h2, h3, fun i' v hv => ?_⟩
          by_cases hij : j = i'
          · subst hij
            have hlt : j < got.length := by
              rcases Nat.lt_or_ge j got.length with h | h
              · exact h
              · rw [List.getElem?_eq_none (by rw [List.length_set]; exact h)] at hv; cases hv
            rw [List.getElem?_set_self hlt] at hv
            obtain ⟨v', g1, g2⟩ := h3 j (by rw [← h2]; exact hlt)
            rw [g1] at hv
            cases hv
            exact g2
          · rw [List.getElem?_set_ne hij] at hv
            exact h4 i' v hv
        · exact h.reading i now' got' hq
    · exact h
  | push k =>
    rw [List.append_nil]
    show Inv cal ts (s.push k)
    unfold St.push
    split
    · rename_i now got hk
      obtain ⟨h1, h2, h3, h4⟩ := h.reading k now got hk
      split
      · rename_i hall
        refine ⟨h.size, fun i now' done' hi => ?_, fun i now' got' hi => ?_, fun l hl => ?_⟩
        · rcases get_set hi with ⟨-, hq⟩ | ⟨-, hq⟩
          · cases hq
          · exact h.writing i now' done' hq
        · rcases get_set hi with ⟨-, hq⟩ | ⟨-, hq⟩
          · cases hq
          · exact h.reading i now' got' hq
        · rcases List.mem_append.mp hl with hl | hl
          · exact h.lines l hl
          · rw [List.mem_singleton] at hl
            subst hl
            refine ⟨h1, rfl, fun j hj => ?_⟩
            have hlt : j < got.length := by rw [h2]; exact hj
            have hs := List.all_eq_true.mp hall _ (List.getElem_mem hlt)
            obtain ⟨v, hv⟩ := Option.isSome_iff_exists.mp hs
            have hg : got[j]? = some (some v) := by rw [List.getElem?_eq_getElem hlt, hv]
            exact ⟨v, hg, h4 j v hg⟩
      · exact h
    · exact h

theorem Inv.run {cal : Nat → Nat → Int} : ∀ (as : List Act) {ts : List Nat} {s : St}, Inv cal ts s → Inv cal (ts ++ began cal s as) (s.run cal as)
  | [], ts, s, h => by show Inv cal (ts ++ []) s; rw [List.append_nil]; exact h
  | a :: as, ts, s, h => by
    have := (h.step a).run as
    rw [List.append_assoc] at this
    exact this

theorem Inv.init (cal : Nat → Nat → Int) (c n : Nat) : Inv cal [] (St.init c n) := by
  have hidle : ∀ (k : Nat) (p : Pc), (St.init c n).ths[k]? = some p → p = .idle := by
    intro k p h
    change (List.replicate n Pc.idle)[k]? = some p at h
    rw [List.getElem?_replicate] at h
    split at h
    · cases h; rfl
    · cases h
  exact ⟨rfl, fun k now done h => (by cases hidle k _ h), fun k now got h => (by cases hidle k _ h), fun l hl => (by cases hl)⟩

/-! ## C120 -/

/-- Every field of every line is that of the time of a call, and the milliseconds are those of the call that wrote the line. -/
theorem stamp_fields_known (cal : Nat → Nat → Int) (c n : Nat) (as : List Act) (l : Line) (hl : l ∈ ((St.init c n).run cal as).queue) :
    l.time ∈ began cal (St.init c n) as ∧ l.ms = l.time % 1000 ∧
      ∀ j, j < nFields → ∃ t ∈ began cal (St.init c n) as, l.fields[j]? = some (some (cal (t / 1000) j)) := by
  have h := (Inv.init cal c n).run as
  rw [List.nil_append] at h
  obtain ⟨h1, h2, h3⟩ := h.lines l hl
  refine ⟨h1, h2, fun j hj => ?_⟩
  obtain ⟨v, h4, t, h5, h6⟩ := h3 j hj
  exact ⟨t, h5, by rw [h4, h6]⟩

/-- C120, `_partial`: if all calls are made in the same second, every line shows the time of its call. Missing: calls in different seconds
(`stamp_from_future`, `stamp_hour_back`). -/
theorem stamp_same_second_partial (cal : Nat → Nat → Int) (c n : Nat) (as : List Act) (sec : Nat)
    (hsec : ∀ t ∈ began cal (St.init c n) as, t / 1000 = sec) (l : Line) (hl : l ∈ ((St.init c n).run cal as).queue) : l.Shows cal l.time := by
  obtain ⟨h1, h2, h3⟩ := stamp_fields_known cal c n as l hl
  refine ⟨h2, fun j hj => ?_⟩
  obtain ⟨t, h4, h5⟩ := h3 j hj
  rw [h5, hsec t h4, hsec _ h1]

/-- While thread `k` is the only one that may write: it idles, or what it has written is there, and what it has read is of its time. -/
structure Solo (cal : Nat → Nat → Int) (k c n : Nat) (s : St) : Prop where
  size : s.tm.length = nFields
  others : ∀ (i now : Nat) (done : List Bool), s.ths[i]? = some (.writing now done) → i = k
  writing : ∀ (now : Nat) (done : List Bool), s.ths[k]? = some (.writing now done) → now = c ∧ done.length = nFields ∧
    ∀ j : Nat, done[j]? = some true → s.tm[j]? = some (cal (c / 1000) j)
  reading : ∀ (now : Nat) (got : List (Option Int)), s.ths[k]? = some (.reading now got) → now = c ∧ got.length = nFields ∧
    (∀ j, j < nFields → s.tm[j]? = some (cal (c / 1000) j)) ∧ ∀ (j : Nat) v, got[j]? = some (some v) → v = cal (c / 1000) j
  lines : ∀ l ∈ s.queue.drop n, l.who = k → l.time = c ∧ l.Shows cal c
  len : n ≤ s.queue.length

theorem set_eq {cal : Nat → Nat → Int} {tm : List Int} {j i sec : Nat} (h : tm[i]? = some (cal sec i)) : (tm.set j (cal sec j))[i]? = some (cal sec i) := by
  by_cases hij : j = i
  · subst hij
    have hlt : j < tm.length := by
      rcases Nat.lt_or_ge j tm.length with h' | h'
      · exact h'
      · rw [List.getElem?_eq_none h'] at h; cases h
    rw [List.getElem?_set_self hlt]
  · rw [List.getElem?_set_ne hij]; exact h

theorem Solo.step {cal : Nat → Nat → Int} {k c n : Nat} {s : St} (h : Solo cal k c n s) {a : Act} (ha : ∀ i, a ≠ .call i) : Solo cal k c n (s.step cal a) := by
  cases a with
  | tick m => exact ⟨h.size, h.others, h.writing, h.reading, h.lines, h.len⟩
  | call i => exact absurd rfl (ha i)
  | write i j =>
    show Solo cal k c n (s.write cal i j)
    unfold St.write
    split
    · rename_i now done hk
      obtain rfl := h.others i now done hk
      obtain ⟨rfl, h2, h3⟩ := h.writing now done hk
      refine ⟨by rw [List.length_set]; exact h.size, fun i' now' done' hi => ?_, fun now' done' hi => ?_, fun now' got hi => ?_, h.lines, h.len⟩
      · rcases get_set hi with ⟨h, -⟩ | ⟨-, hq⟩
        · exact h
        · exact h.others i' now' done' hq
      · rcases get_set hi with ⟨-, hq⟩ | ⟨hne, -⟩
        · cases hq
          refine ⟨rfl, by rw [List.length_set]; exact h2, fun i' hi' => ?_⟩
          by_cases hij : j = i'
          · subst hij
            have hlt : j < done.length := by
              rcases Nat.lt_or_ge j done.length with h | h
              · exact h
              · rw [List.getElem?_eq_none (by rw [List.length_set]; exact h)] at hi'; cases hi'
            rw [List.getElem?_set_self (by rw [h.size, ← h2]; exact hlt)]
          · rw [List.getElem?_set_ne hij] at hi'
            exact set_eq (h3 i' hi')
        · exact absurd rfl hne
      · rcases get_set hi with ⟨-, hq⟩ | ⟨hne, -⟩
        · cases hq
        · exact absurd rfl hne
    · exact h
  | next i =>
    show Solo cal k c n (s.next i)
    unfold St.next
    split
    · rename_i now done hk
      obtain rfl := h.others i now done hk
      obtain ⟨rfl, h2, h3⟩ := h.writing now done hk
      split
      · rename_i hall
        refine ⟨h.size, fun i' now' done' hi => ?_, fun now' done' hi => ?_, fun now' got hi => ?_, h.lines, h.len⟩
        · rcases get_set hi with ⟨h, -⟩ | ⟨-, hq⟩
          · exact h
          · exact h.others i' now' done' hq
        · rcases get_set hi with ⟨-, hq⟩ | ⟨hne, -⟩
          · cases hq
          · exact absurd rfl hne
        · rcases get_set hi with ⟨-, hq⟩ | ⟨hne, -⟩
          · cases hq
            refine ⟨rfl, List.length_replicate, fun j hj => h3 j ?_, fun j v hj => ?_⟩
            · have hlt : j < done.length := by rw [h2]; exact hj
              rw [List.getElem?_eq_getElem hlt]
              exact congrArg some (List.all_eq_true.mp hall _ (List.getElem_mem hlt))
            · rw [List.getElem?_replicate] at hj
              split at hj <;> cases hj
          · exact absurd rfl hne
      · exact h
    · exact h
  | read i j =>
    show Solo cal k c n (s.read i j)
    unfold St.read
    split
    · rename_i now got hk
      refine ⟨h.size, fun i' now' done' hi => ?_, fun now' done' hi => ?_, fun now' got' hi => ?_, h.lines, h.len⟩
      · rcases get_set hi with ⟨-, hq⟩ | ⟨-, hq⟩
        · cases hq
        · exact h.others i' now' done' hq
      · rcases get_set hi with ⟨-, hq⟩ | ⟨-, hq⟩
        · cases hq
        · exact h.writing now' done' hq
      · rcases get_set hi with ⟨rfl, hq⟩ | ⟨-, hq⟩
        · cases hq
          obtain ⟨rfl, h2, h3, h4⟩ := h.reading now got hk
          refine ⟨rfl, by rw [List.length_set]; exact h2, h3, fun i' v hv => ?_⟩
          by_cases hij : j = i'
          · subst hij
            have hlt : j < got.length := by
              rcases Nat.lt_or_ge j got.length with h | h
              · exact h
              · rw [List.getElem?_eq_none (by rw [List.length_set]; exact h)] at hv; cases hv
            rw [List.getElem?_set_self hlt, h3 j (by rw [← h2]; exact hlt)] at hv
            cases hv
            rfl
          · rw [List.getElem?_set_ne hij] at hv
            exact h4 i' v hv
        · exact h.reading now' got' hq
    · exact h
  | push i =>
    show Solo cal k c n (s.push i)
    unfold St.push
    split
    · rename_i now got hk
      split
      · rename_i hall
        refine ⟨h.size, fun i' now' done' hi => ?_, fun now' done' hi => ?_, fun now' got' hi => ?_, fun l hl hw => ?_, ?_⟩
        · rcases get_set hi with ⟨-, hq⟩ | ⟨-, hq⟩
          · cases hq
          · exact h.others i' now' done' hq
        · rcases get_set hi with ⟨-, hq⟩ | ⟨-, hq⟩
          · cases hq
          · exact h.writing now' done' hq
        · rcases get_set hi with ⟨-, hq⟩ | ⟨-, hq⟩
          · cases hq
          · exact h.reading now' got' hq
        · change l ∈ (s.queue ++ [_]).drop n at hl
          rw [List.drop_append_of_le_length h.len] at hl
          rcases List.mem_append.mp hl with hl | hl
          · exact h.lines l hl hw
          · rw [List.mem_singleton] at hl
            subst hl
            change i = k at hw
            subst hw
            obtain ⟨rfl, h2, h3, h4⟩ := h.reading now got hk
            refine ⟨rfl, rfl, fun j hj => ?_⟩
            have hlt : j < got.length := by rw [h2]; exact hj
            have hs := List.all_eq_true.mp hall _ (List.getElem_mem hlt)
            obtain ⟨v, hv⟩ := Option.isSome_iff_exists.mp hs
            have hg : got[j]? = some (some v) := by rw [List.getElem?_eq_getElem hlt, hv]
            show got[j]? = _
            rw [hg, h4 j v hg]
        · show n ≤ (s.queue ++ [_]).length
          rw [List.length_append]
          exact Nat.le_trans h.len (Nat.le_add_right _ _)
      · exact h
    · exact h

theorem Solo.run {cal : Nat → Nat → Int} {k c n : Nat} : ∀ (as : List Act) {s : St}, Solo cal k c n s → (∀ i, .call i ∉ as) → Solo cal k c n (s.run cal as)
  | [], _, h, _ => h
  | _ :: as, _, h, ha => (h.step (fun i hi => ha i (hi ▸ List.mem_cons_self))).run as fun i hi => ha i (List.mem_cons_of_mem _ hi)

/-- C120, `_partial`: a call during which no other thread is in `gmtime` or calls `write_log` writes a line that shows its time, whatever was
before. Missing: calls at the same time (`stamp_from_future`, `stamp_hour_back`). -/
theorem stamp_alone_partial (cal : Nat → Nat → Int) (c n : Nat) (as bs : List Act) (k : Nat) {s : St} (hs : s = (St.init c n).run cal as)
    (hk : s.ths[k]? = some .idle) (ho : ∀ (i now : Nat) (done : List Bool), s.ths[i]? ≠ some (.writing now done)) (hb : ∀ i, .call i ∉ bs) (l : Line)
    (hl : l ∈ (s.run cal (.call k :: bs)).queue.drop s.queue.length) (hw : l.who = k) : l.Shows cal s.clock := by
  have hi := (Inv.init cal c n).run as
  rw [← hs] at hi
  have hstep : s.step cal (.call k) = { s with ths := s.ths.set k (.writing s.clock (List.replicate nFields false)) } := by
    show s.call k = _
    unfold St.call
    rw [hk]
  have h0 : Solo cal k s.clock s.queue.length (s.step cal (.call k)) := by
    rw [hstep]
    refine ⟨hi.size, fun i now done h => ?_, fun now done h => ?_, fun now got h => ?_, fun l hl => ?_, Nat.le_refl _⟩
    · rcases get_set h with ⟨h, -⟩ | ⟨-, h⟩
      · exact h
      · exact absurd h (ho i now done)
    · rcases get_set h with ⟨-, h⟩ | ⟨hne, -⟩
      · cases h
        refine ⟨rfl, List.length_replicate, fun j hj => ?_⟩
        rw [List.getElem?_replicate] at hj
        split at hj <;> cases hj
      · exact absurd rfl hne
    · rcases get_set h with ⟨-, h⟩ | ⟨hne, -⟩
      · cases h
      · exact absurd rfl hne
    · rw [List.drop_of_length_le (Nat.le_refl _)] at hl; cases hl
  exact ((h0.run bs hb).lines l hl hw).2

/-- The time a call has read. -/
def Pc.now : Pc → Option Nat
  | .idle => none
  | .writing t _ => some t
  | .reading t _ => some t

/-- From a state with the clock at `c` and `n` lines on, in which thread `k` was idle. -/
structure Later (k c n : Nat) (s : St) : Prop where
  clock : c ≤ s.clock
  run : ∀ p t, s.ths[k]? = some p → p.now = some t → c ≤ t
  lines : ∀ l ∈ s.queue.drop n, l.who = k → c ≤ l.time
  len : n ≤ s.queue.length

theorem Later.move {k c n i : Nat} {s s' : St} {p q : Pc} (h : Later k c n s) (hp : s.ths[i]? = some p) (h1 : s'.clock = s.clock) (h2 : s'.queue = s.queue)
    (h3 : s'.ths = s.ths.set i q) (hq : ∀ t, q.now = some t → p.now = some t ∨ c ≤ t) : Later k c n s' := by
  refine ⟨h1 ▸ h.clock, fun p' t hp' ht => ?_, h2 ▸ h.lines, h2 ▸ h.len⟩
  rw [h3] at hp'
  rcases get_set hp' with ⟨rfl, rfl⟩ | ⟨-, hp'⟩
  · rcases hq t ht with hq | hq
    · exact h.run p t hp hq
    · exact hq
  · exact h.run p' t hp' ht

theorem Later.step (cal : Nat → Nat → Int) {k c n : Nat} {s : St} (h : Later k c n s) (a : Act) : Later k c n (s.step cal a) := by
  cases a with
  | tick m => exact ⟨Nat.le_trans h.clock (Nat.le_add_right _ _), h.run, h.lines, h.len⟩
  | call i =>
    show Later k c n (s.call i)
    unfold St.call
    split
    · rename_i hi
      exact h.move hi rfl rfl rfl fun t ht => by cases ht; exact .inr h.clock
    · exact h
  | write i j =>
    show Later k c n (s.write cal i j)
    unfold St.write
    split
    · rename_i hi
      exact h.move hi rfl rfl rfl fun t ht => .inl ht
    · exact h
  | next i =>
    show Later k c n (s.next i)
    unfold St.next
    split
    · rename_i hi
      split
      · exact h.move hi rfl rfl rfl fun t ht => .inl ht
      · exact h
    · exact h
  | read i j =>
    show Later k c n (s.read i j)
    unfold St.read
    split
    · rename_i hi
      exact h.move hi rfl rfl rfl fun t ht => .inl ht
    · exact h
  | push i =>
    show Later k c n (s.push i)
    unfold St.push
    split
    · rename_i now got hi
      split
      · refine ⟨h.clock, fun p t hp ht => ?_, fun l hl hw => ?_, ?_⟩
        · rcases get_set hp with ⟨-, rfl⟩ | ⟨-, hp⟩
          · cases ht
          · exact h.run p t hp ht
        · change l ∈ (s.queue ++ [_]).drop n at hl
          rw [List.drop_append_of_le_length h.len] at hl
          rcases List.mem_append.mp hl with hl | hl
          · exact h.lines l hl hw
          · rw [List.mem_singleton] at hl
            subst hl
            change i = k at hw
            subst hw
            exact h.run _ now hi rfl
        · show n ≤ (s.queue ++ [_]).length
          rw [List.length_append]
          exact Nat.le_trans h.len (Nat.le_add_right _ _)
      · exact h
    · exact h

theorem Later.runs (cal : Nat → Nat → Int) {k c n : Nat} : ∀ (as : List Act) {s : St}, Later k c n s → Later k c n (s.run cal as)
  | [], _, h => h
  | a :: as, _, h => (h.step cal a).runs cal as

theorem step_queue (cal : Nat → Nat → Int) (s : St) (a : Act) : s.queue <+: (s.step cal a).queue := by
  cases a with
  | tick m => exact List.prefix_rfl
  | call i => show s.queue <+: (s.call i).queue; unfold St.call; split <;> exact List.prefix_rfl
  | write i j => show s.queue <+: (s.write cal i j).queue; unfold St.write; split <;> exact List.prefix_rfl
  | next i =>
    show s.queue <+: (s.next i).queue
    unfold St.next
    split
    · split <;> exact List.prefix_rfl
    · exact List.prefix_rfl
  | read i j => show s.queue <+: (s.read i j).queue; unfold St.read; split <;> exact List.prefix_rfl
  | push i =>
    show s.queue <+: (s.push i).queue
    unfold St.push
    split
    · split
      · exact List.prefix_append _ _
      · exact List.prefix_rfl
    · exact List.prefix_rfl

theorem run_queue (cal : Nat → Nat → Int) : ∀ (as : List Act) (s : St), s.queue <+: (s.run cal as).queue
  | [], _ => List.prefix_rfl
  | a :: as, s => (step_queue cal s a).trans (run_queue cal as _)

theorem step_clock (cal : Nat → Nat → Int) (s : St) (a : Act) : s.clock ≤ (s.step cal a).clock := by
  cases a with
  | tick m => exact Nat.le_add_right _ _
  | call i => show s.clock ≤ (s.call i).clock; unfold St.call; split <;> exact Nat.le_refl _
  | write i j => show s.clock ≤ (s.write cal i j).clock; unfold St.write; split <;> exact Nat.le_refl _
  | next i =>
    show s.clock ≤ (s.next i).clock
    unfold St.next
    split
    · split <;> exact Nat.le_refl _
    · exact Nat.le_refl _
  | read i j => show s.clock ≤ (s.read i j).clock; unfold St.read; split <;> exact Nat.le_refl _
  | push i =>
    show s.clock ≤ (s.push i).clock
    unfold St.push
    split
    · split <;> exact Nat.le_refl _
    · exact Nat.le_refl _

theorem began_le (cal : Nat → Nat → Int) : ∀ (as : List Act) (s : St) (t : Nat), t ∈ began cal s as → t ≤ (s.run cal as).clock
  | [], _, _, h => by cases h
  | a :: as, s, t, h => by
    have hmono : ∀ (as : List Act) (s : St), s.clock ≤ (s.run cal as).clock := by
      intro as
      induction as with
      | nil => exact fun _ => Nat.le_refl _
      | cons a as ih => exact fun s => Nat.le_trans (step_clock cal s a) (ih _)
    rcases List.mem_append.mp h with h | h
    · cases a with
      | call i =>
        rw [List.mem_singleton] at h
        subst h
        exact hmono (.call i :: as) s
      | tick _ | write _ _ | next _ | read _ _ | push _ => cases h
    · exact began_le cal as _ t h

/-- C120: the line of a call that begins after another call has returned comes later in the queue, and the time of the call is not before that of the
other one. -/
theorem lines_in_order (cal : Nat → Nat → Int) (c n : Nat) (as bs : List Act) {s t : St} (hs : s = (St.init c n).run cal as) (ht : t = s.run cal bs)
    (l l' : Line) (hl : l ∈ s.queue) (hl' : l' ∈ t.queue.drop s.queue.length) (hidle : s.ths[l'.who]? = some .idle) :
    s.queue <+: t.queue ∧ l.time ≤ l'.time := by
  subst ht
  refine ⟨run_queue cal bs s, ?_⟩
  have h0 : Later l'.who s.clock s.queue.length s := by
    refine ⟨Nat.le_refl _, fun p t hp ht => ?_, fun l hl => ?_, Nat.le_refl _⟩
    · rw [hidle] at hp; cases hp; cases ht
    · rw [List.drop_of_length_le (Nat.le_refl _)] at hl; cases hl
  have h1 := (h0.runs cal bs).lines l' hl' rfl
  refine Nat.le_trans ?_ h1
  subst hs
  exact began_le cal as _ _ (stamp_fields_known cal c n as l hl).1

/-- A call in two steps of all fields. -/
def writeAll (k : Nat) : List Act := (List.range nFields).map (.write k)
def readAll (k : Nat) : List Act := (List.range nFields).map (.read k)

/-- C120 is false: thread 0 calls at 0:00:59.900 and thread 1 at 0:01:00.100, and the line of thread 0 shows 0:01:00.900, a time that has
not come when the line is put into the queue. -/
theorem stamp_from_future : ∃ as s l, s = (St.init 59900 2).run wallClock as ∧ s.queue = [l] ∧ l.who = 0 ∧ l.time = 59900 ∧ s.clock = 60100 ∧
    l.Shows wallClock 60900 := by
  refine ⟨[.call 0] ++ writeAll 0 ++ [.next 0, .tick 200, .call 1] ++ writeAll 1 ++ readAll 0 ++ [.push 0], _,
    ⟨0, 59900, [some 0, some 0, some 0, some 0, some 1, some 0], 900⟩, rfl, by decide +kernel, rfl, rfl, by decide +kernel, rfl, ?_⟩
  decide +kernel

/-- C120 is false: thread 0 calls at 10:59:59.900 and reads the hour, thread 1 calls at 11:00:00.100, and thread 0 reads minutes and seconds.
The line shows 10:00:00.900. -/
theorem stamp_hour_back : ∃ as s l, s = (St.init 39599900 2).run wallClock as ∧ s.queue = [l] ∧ l.time = 39599900 ∧ s.clock = 39600100 ∧
    l.Shows wallClock 36000900 := by
  refine ⟨[.call 0] ++ writeAll 0 ++ [.next 0, .read 0 3, .tick 200, .call 1] ++ writeAll 1 ++ [.read 0 0, .read 0 1, .read 0 2, .read 0 4, .read 0 5, .push 0], _,
    ⟨0, 39599900, [some 0, some 0, some 0, some 10, some 0, some 0], 900⟩, rfl, by decide +kernel, rfl, by decide +kernel, rfl, ?_⟩
  decide +kernel

/-- Lines are not ordered by their time: a call that began later may put its line into the queue first. -/
theorem lines_not_in_order : ∃ as s l l', s = (St.init 1000 2).run wallClock as ∧ s.queue = [l, l'] ∧ l'.time < l.time := by
  refine ⟨[.call 0, .tick 1000, .call 1] ++ writeAll 1 ++ [.next 1] ++ readAll 1 ++ [.push 1] ++ writeAll 0 ++ [.next 0] ++ readAll 0 ++ [.push 0], _,
    ⟨1, 2000, [some 0, some 0, some 0, some 0, some 0, some 2], 0⟩, ⟨0, 1000, [some 0, some 0, some 0, some 0, some 0, some 1], 0⟩, rfl, by decide +kernel, by decide⟩

/-- A line that was not written alone, and one that was. -/
example : ∃ as bs s, s = (St.init 1000 2).run wallClock as ∧ s.ths[0]? = some .idle ∧ (∀ (i now : Nat) (done : List Bool), s.ths[i]? ≠ some (.writing now done)) ∧
    (∀ i, Act.call i ∉ bs) ∧ ∃ l ∈ (s.run wallClock (.call 0 :: bs)).queue.drop s.queue.length, l.who = 0 := by
  refine ⟨[.call 1] ++ writeAll 1 ++ [.next 1, .tick 5000], writeAll 0 ++ [.next 0] ++ readAll 1 ++ readAll 0 ++ [.push 1, .push 0], _, rfl, by decide +kernel, ?_, ?_, ?_⟩
  · intro i now done h
    have hths : ((St.init 1000 2).run wallClock ([.call 1] ++ writeAll 1 ++ [.next 1, .tick 5000])).ths = [.idle, .reading 1000 (List.replicate nFields none)] := by decide +kernel
    rw [hths] at h
    match i, h with
    | 0, h => cases h
    | 1, h => cases h
  · intro i h
    simp [writeAll, readAll] at h
  · decide +kernel

/-- Two calls at the same time in one second. -/
example : ∃ as, (∀ t ∈ began wallClock (St.init 1000 2) as, t / 1000 = 1) ∧ ((St.init 1000 2).run wallClock as).queue.length = 2 :=
  ⟨[.call 0] ++ writeAll 0 ++ [.next 0, .tick 300, .call 1] ++ writeAll 1 ++ [.next 1] ++ readAll 0 ++ readAll 1 ++ [.push 1, .push 0],
    by decide +kernel, by decide +kernel⟩

/-- A call after another one. -/
example : ∃ as bs s t l l', s = (St.init 1000 2).run wallClock as ∧ t = s.run wallClock bs ∧ l ∈ s.queue ∧ l' ∈ t.queue.drop s.queue.length ∧
    s.ths[l'.who]? = some .idle :=
  ⟨[.call 0] ++ writeAll 0 ++ [.next 0] ++ readAll 0 ++ [.push 0], [.tick 5, .call 1] ++ writeAll 1 ++ [.next 1] ++ readAll 1 ++ [.push 1], _, _,
    ⟨0, 1000, [some 0, some 0, some 0, some 0, some 0, some 1], 0⟩, ⟨1, 1005, [some 0, some 0, some 0, some 0, some 0, some 1], 5⟩, rfl, rfl,
    by decide +kernel, by decide +kernel, by decide +kernel⟩

end Cs.Stamp
