import Verif.LogStore.Steps4

/-!
# Properties of the file based log store (C14 - C23)

The specification vocabulary (`Log`, `Ideal`, `Within`, `Reach`, `Shows`, crash effects) is in `Verif/LogStore/Spec.lean`.
The theorems quantify over every reachable store: every history of operations, reopening included, and every cache size
other than 0. Theorems named `..._not...` show what the code does where it departs from the property.
-/

namespace Cs.LogStore
open Cs Cs.Buffer

/-! ## Concrete stores used in the examples -/

/-- An entry with three bytes of payload. -/
def e3 : Ent := ⟨5, 1, [1, 2, 3]⟩
/-- An entry with one byte of payload. -/
def e1 : Ent := ⟨6, 1, [9]⟩

/-- There is a reachable store with three entries, two of which are outside its cache. -/
theorem reach_three : ∃ s, Reach s ⟨1, [e3, e3, e1]⟩ ∧ s.cache.first = 3 := by
  obtain ⟨s0, h0, -⟩ := open_new 1 (by decide)
  have r0 := Reach.new (b := 1) (by decide) h0
  have go : ∀ {s : Store} {l : Log} (e : Ent), Reach s l → Log.Fits ⟨l.start, l.ents ++ [e]⟩ →
      ∃ s', Reach s' ⟨l.start, l.ents ++ [e]⟩ ∧ s'.bufSize = s.bufSize := by
    intro s l e hr hf
    obtain ⟨r, s', l', h1, h2, h3, h4, -⟩ := step_all hr.rep (.append e) hf
    obtain rfl := h2.2
    exact ⟨s', .step (op := .append e) hr hf h1 h2, h4 (by simp)⟩
  obtain ⟨s1, r1, b1⟩ := go e3 r0 ⟨by decide, by decide, by decide⟩
  obtain ⟨s2, r2, b2⟩ := go e3 r1 ⟨by decide, by decide, by decide⟩
  obtain ⟨s3, r3, b3⟩ := go e1 r2 ⟨by decide, by decide, by decide⟩
  refine ⟨s3, r3, ?_⟩
  have hb : s3.bufSize = 1 := by
    rw [b3, b2, b1]
    obtain ⟨s', h1, -, h2⟩ := open_new 1 (by decide)
    rw [h0] at h1; cases h1; exact h2
  have h := r3.rep
  have h1 := h.room
  rw [h.cached, hb] at h1
  have h2 := h.first
  have h3 := h.nonempty
  simp [Log.empty] at h1 h2 h3
  omega

/-- There is a reachable store with the default cache size and two entries. -/
theorem reach_default : ∃ s, ReachDefault s ⟨1, [e3, e1]⟩ := by
  obtain ⟨s0, h0, -⟩ := open_new (-1) (by decide)
  have r0 := ReachDefault.new (b := -1) (by decide) h0
  have go : ∀ {s : Store} {l : Log} (e : Ent), ReachDefault s l → Log.Fits ⟨l.start, l.ents ++ [e]⟩ →
      ∃ s', ReachDefault s' ⟨l.start, l.ents ++ [e]⟩ := by
    intro s l e hr hf
    obtain ⟨r, s', l', h1, h2, -⟩ := step_all hr.rep.1 (.append e) hf
    obtain rfl := h2.2
    exact ⟨s', .step (op := .append e) hr hf (by simp) h1 h2⟩
  obtain ⟨s1, r1⟩ := go e3 r0 ⟨by decide, by decide, by decide⟩
  obtain ⟨s2, r2⟩ := go e1 r1 ⟨by decide, by decide, by decide⟩
  exact ⟨s2, r2⟩

/-! ## C14: the store behaves as a log -/

/-- C14 (partial): in every reachable store every operation within its range succeeds, answers like the ideal log and
leaves a store that corresponds to the ideal log after the operation. What is missing to the full statement: `Within`
excludes the replacements of `C17_not_stale_bytes` and, for bounded caches, `write_at` before the cached part
(`C20_not_stale_cache`) and range reads that end before it (`C16_not_overrun`). -/
theorem C14_step_partial {s : Store} {l : Log} (h : Reach s l) (op : Op) (hw : Within l s.cache.first op) :
    ∃ r s' l', op.run s = (.ok r, s') ∧ Ideal l op r l' ∧ Reach s' l' := by
  obtain ⟨r, s', l', h1, h2, -⟩ := step_all h.rep op hw
  exact ⟨r, s', l', h1, h2, .step h hw h1 h2⟩

example : ∃ s, Reach s ⟨1, [e3, e3, e1]⟩ ∧ Within ⟨1, [e3, e3, e1]⟩ s.cache.first (.logEntries 2 4) ∧
    Within ⟨1, [e3, e3, e1]⟩ s.cache.first (.writeAt 3 e3) ∧ Within ⟨1, [e3, e3, e1]⟩ s.cache.first (.compact 1) := by
  obtain ⟨s, h, hf⟩ := reach_three
  refine ⟨s, h, ?_⟩
  rw [hf]
  exact ⟨⟨by decide, fun _ _ => by decide⟩, ⟨by decide, by decide, by decide, .inr (by decide), by decide, by decide, by decide⟩, by decide, by decide⟩

/-- C14 (partial), with the default cache size: no condition refers to the cache. -/
theorem C14_default_partial {s : Store} {l : Log} (h : ReachDefault s l) (op : Op) (hw : Within l l.start op)
    (hb : ∀ b, op = .reopen b → b < 0) :
    ∃ r s' l', op.run s = (.ok r, s') ∧ Ideal l op r l' ∧ ReachDefault s' l' := by
  obtain ⟨r, s', l', h1, h2, -⟩ := step_all h.rep.1 op (by rw [h.first]; exact hw)
  exact ⟨r, s', l', h1, h2, .step h hw hb h1 h2⟩

example : ∃ s, ReachDefault s ⟨1, [e3, e1]⟩ ∧ Within ⟨1, [e3, e1]⟩ 1 (.writeAt 1 e1) := by
  obtain ⟨s, h⟩ := reach_default
  exact ⟨s, h, by decide, by decide, by decide, .inl (by decide), by decide, by decide, by decide⟩

/-- C14: whatever the history, every question is answered from the ideal log. -/
theorem C14_reads {s : Store} {l : Log} (h : Reach s l) : Shows s l := h.rep.shows

example : ∃ s, Reach s ⟨1, [e3, e3, e1]⟩ ∧ (Op.run (.entryAt 2) s).1 = .ok (.ent (some e3)) := by
  obtain ⟨s, h, -⟩ := reach_three
  exact ⟨s, h, (C14_reads h).2.2.2.1 2 (by decide)⟩

/-! ## C15: reopening -/

/-- C15: reopening any reachable store with any cache size but 0 shows the same log, and the new store is reachable. -/
theorem C15_reopen {s : Store} {l : Log} (h : Reach s l) (b : Int) (hb : b ≠ 0) :
    ∃ s', openOn s.disk b = .ok s' ∧ Shows s' l ∧ Reach s' l := by
  obtain ⟨s', h1, h2⟩ := open_ok h.rep.fits b hb
  rw [← h.rep.disk] at h1
  refine ⟨s', h1, h2.1.shows, .step (op := .reopen b) (r := .done) h hb ?_ ⟨rfl, rfl⟩⟩
  rw [Op.run, h1]

example : ∃ s s', Reach s ⟨1, [e3, e3, e1]⟩ ∧ openOn s.disk 2 = .ok s' ∧ (Op.run .lastEntry s').1 = .ok (.ent (some e1)) := by
  obtain ⟨s, h, -⟩ := reach_three
  obtain ⟨s', h1, h2, -⟩ := C15_reopen h 2 (by decide)
  exact ⟨s, s', h, h1, h2.2.2.1⟩

/-- C15 fails for a cache of size 0: no store with entries can be opened. -/
theorem C15_not_cache_zero {s : Store} {l : Log} (h : Reach s l) (hne : l.ents ≠ []) :
    openOn s.disk 0 = .error .thrown := by
  rw [h.rep.disk]; exact open_zero h.rep.fits hne

example : ∃ s, Reach s ⟨1, [e3, e3, e1]⟩ ∧ openOn s.disk 0 = .error .thrown := by
  obtain ⟨s, h, -⟩ := reach_three
  exact ⟨s, h, C15_not_cache_zero h (by decide)⟩

/-! ## C16: range reads -/

/-- C16 (partial): a range read returns exactly the range, in order, if it does not end before the cached part. -/
theorem C16_range_partial {s : Store} {l : Log} (h : Reach s l) (i j : Nat) (hi : l.start ≤ i) (hij : i < j) (hn : i < l.next)
    (hc : s.cache.first ≤ j) : ∃ (s' : Store) (es : List Ent), logEntries i j s = (.ok (some (es.map some)), s') ∧ Reach s' l ∧
      es.length = min j l.next - i ∧ ∀ k, k < es.length → es[k]? = l.get? (i + k) := by
  obtain ⟨a, s', h1, h2, -⟩ := step_logEntries h.rep i j hi
  rw [view_self, if_pos ⟨hij, hn⟩, Nat.max_eq_left hc] at h2
  have hn' : l.next = l.start + l.ents.length := rfl
  refine ⟨s', l.range i j, by rw [h1, h2], ?_, ?_, ?_⟩
  · refine .step (op := .logEntries i j) (r := .ents a) h ⟨hi, fun _ _ => hc⟩ (by rw [Op.run, wrap, h1]) ⟨?_, rfl⟩
    rw [h2, if_neg]
    intro h0
    have := congrArg List.length h0
    simp [Log.range] at this
    omega
  · simp [Log.range]; omega
  · intro k hk
    simp only [Log.range, List.length_take, List.length_drop] at hk
    rw [Log.range, List.getElem?_take, if_pos (by omega), List.getElem?_drop, get?_eq (by omega)]
    congr 1; omega

example : ∃ s, Reach s ⟨1, [e3, e3, e1]⟩ ∧ s.cache.first ≤ 3 ∧ ∃ (s' : Store) (es : List Ent), logEntries 1 3 s = (.ok (some (es.map some)), s') ∧ es.length = 2 := by
  obtain ⟨s, h, hf⟩ := reach_three
  obtain ⟨s', es, h1, -, h2, -⟩ := C16_range_partial h 1 3 (by decide) (by decide) (by decide) (by omega)
  exact ⟨s, h, by omega, s', es, h1, h2⟩

/-- C16, with the default cache size: no condition on the cache. -/
theorem C16_range_default {s : Store} {l : Log} (h : ReachDefault s l) (i j : Nat) (hi : l.start ≤ i) (hij : i < j) (hn : i < l.next) :
    ∃ (s' : Store) (es : List Ent), logEntries i j s = (.ok (some (es.map some)), s') ∧ Reach s' l ∧
      es.length = min j l.next - i ∧ ∀ k, k < es.length → es[k]? = l.get? (i + k) :=
  C16_range_partial h.reach i j hi hij hn (by rw [h.first]; omega)

example : ∃ s, ReachDefault s ⟨1, [e3, e1]⟩ ∧ ∃ (s' : Store) (es : List Ent), logEntries 1 2 s = (.ok (some (es.map some)), s') ∧ es.length = 1 := by
  obtain ⟨s, h⟩ := reach_default
  obtain ⟨s', es, h1, -, h2, -⟩ := C16_range_default h 1 2 (by decide) (by decide) (by decide)
  exact ⟨s, h, s', es, h1, h2⟩

/-- C16: empty ranges and ranges after the end give no list. -/
theorem C16_empty {s : Store} {l : Log} (h : Reach s l) (i j : Nat) (hi : l.start ≤ i) (he : j ≤ i ∨ l.next ≤ i) :
    ∃ s', logEntries i j s = (.ok none, s') := by
  obtain ⟨a, s', h1, h2, -⟩ := step_logEntries h.rep i j hi
  rw [if_neg (by omega)] at h2
  exact ⟨s', by rw [h1, h2]⟩

example : ∃ s, Reach s ⟨1, [e3, e3, e1]⟩ ∧ (3 : Nat) ≤ 3 := by
  obtain ⟨s, h, -⟩ := reach_three
  exact ⟨s, h, by decide⟩

/-- C16 fails: a range that ends before the cached part is answered with everything up to the cached part. -/
theorem C16_not_overrun {s : Store} {l : Log} (h : Reach s l) (i j : Nat) (hi : l.start ≤ i) (hij : i < j)
    (hc : j < s.cache.first) : ∃ (s' : Store) (es : List Ent), logEntries i j s = (.ok (some (es.map some)), s') ∧
      es.length = s.cache.first - i ∧ j - i < es.length ∧ ∀ k, k < es.length → es[k]? = l.get? (i + k) := by
  obtain ⟨a, s', h1, h2, -⟩ := step_logEntries h.rep i j hi
  have hw := h.rep.nonempty
  have hn' : l.next = l.start + l.ents.length := rfl
  have hlt : s.cache.first - l.start < l.ents.length := by rcases hw with h | ⟨_, h⟩ <;> omega
  rw [view_self, if_pos ⟨hij, by omega⟩, Nat.max_eq_right (by omega)] at h2
  have hlen : (l.range i s.cache.first).length = s.cache.first - i := by simp [Log.range]; omega
  refine ⟨s', l.range i s.cache.first, by rw [h1, h2], hlen, by omega, ?_⟩
  intro k hk
  rw [hlen] at hk
  rw [Log.range, List.getElem?_take, if_pos (by omega), List.getElem?_drop, get?_eq (by omega)]
  congr 1; omega

example : ∃ s, Reach s ⟨1, [e3, e3, e1]⟩ ∧ ∃ (s' : Store) (es : List Ent), logEntries 1 2 s = (.ok (some (es.map some)), s') ∧ es.length = 2 := by
  obtain ⟨s, h, hf⟩ := reach_three
  obtain ⟨s', es, h1, h2, -⟩ := C16_not_overrun h 1 2 (by decide) (by decide) (by omega)
  exact ⟨s, h, s', es, h1, by omega⟩

/-! ## C17: write_at -/

/-- C17 (partial): `write_at` makes `e` the last entry, at index `i`, and keeps everything before, also after reopening.
What is missing: `Clean`, see `C17_not_stale_bytes`, and `i` not before the cached part, see `C20_not_stale_cache`. -/
theorem C17_write_at_partial {s : Store} {l : Log} (h : Reach s l) (i : Nat) (e : Ent) (hi : l.start ≤ i) (hn : i ≤ l.next)
    (hc : s.cache.first ≤ i) (hcl : l.Clean i [e]) (hf : (l.replaceFrom i [e]).Fits) :
    ∃ s' l', writeAt i e s = (.ok (), s') ∧ Reach s' l' ∧ Shows s' l' ∧ l'.start = l.start ∧ l'.next = i + 1 ∧
      l'.get? i = some e ∧ (∀ j, j < i → l'.get? j = l.get? j) ∧
      ∀ b, b ≠ 0 → ∃ s'', openOn s'.disk b = .ok s'' ∧ Shows s'' l' := by
  obtain ⟨a, s', h1, h2, h3⟩ := step_writeAt h.rep i e hi hn hc hf
  have hn' : l.next = l.start + l.ents.length := rfl
  have hr : Reach s' (l.replaceFrom i [e]) :=
    .step (op := .writeAt i e) (r := .done) h ⟨hi, hn, hc, hcl, hf⟩ (by rw [Op.run, wrap, h1]) ⟨rfl, rfl⟩
  refine ⟨s', _, h1, hr, hr.rep.shows, rfl, ?_, ?_, ?_, fun b hb => ?_⟩
  · simp only [Log.next, Log.replaceFrom, List.length_append, List.length_take, List.length_cons, List.length_nil]; omega
  · rw [get?_eq (l := l.replaceFrom i [e]) hi]
    simp only [Log.replaceFrom]
    rw [List.getElem?_append_right (by simp; omega), List.length_take, Nat.min_eq_left (by omega), Nat.sub_self]; rfl
  · intro j hj
    unfold Log.get? Log.replaceFrom
    by_cases hjs : j < l.start
    · simp [hjs]
    · simp only [if_neg hjs]
      rw [List.getElem?_append_left (by simp; omega), List.getElem?_take, if_pos (by omega)]
  · obtain ⟨s'', g1, g2, -⟩ := C15_reopen hr b hb
    exact ⟨s'', g1, g2⟩

example : ∃ s, Reach s ⟨1, [e3, e3, e1]⟩ ∧ s.cache.first ≤ 3 ∧ Log.Clean ⟨1, [e3, e3, e1]⟩ 3 [e3] := by
  obtain ⟨s, h, hf⟩ := reach_three
  exact ⟨s, h, by omega, .inr (by decide)⟩

/-- C17 fails: overwriting the last entry of any store by a shorter one is not durable. Until the store is closed the
new entry is shown; after reopening it has got the end of the old payload. -/
theorem C17_not_stale_bytes {s : Store} {st : Nat} {A : List Ent} {o : Ent} (h : Reach s ⟨st, A ++ [o]⟩) (e : Ent)
    (hlt : e.data.length < o.data.length) (b : Int) (hb : b ≠ 0) :
    ∃ s' s'', writeAt (st + A.length) e s = (.ok (), s') ∧ (Op.run .lastEntry s').1 = .ok (.ent (some e)) ∧
      openOn s'.disk b = .ok s'' ∧
      Shows s'' ⟨st, A ++ [{ e with data := e.data ++ o.data.drop e.data.length }]⟩ := by
  have hr := h.rep
  obtain ⟨hf1, hf2, hf3⟩ := hr.fits
  simp only [dataSize_append, dataSize_cons, dataSize_nil, Log.next, List.length_append, List.length_cons, List.length_nil] at hf1 hf2 hf3
  have hne := hr.nonempty
  have h0 := hr.first
  simp only [List.length_append, List.length_cons, List.length_nil, List.append_eq_nil_iff] at hne h0
  have hfirst : s.cache.first ≤ st + A.length := by
    rcases hne with h | ⟨⟨_, h⟩, _⟩
    · omega
    · simp at h
  have hdrop : (A ++ [o]).drop (st + A.length - st) = [o] := by rw [Nat.add_sub_cancel_left]; simp
  have htake : (A ++ [o]).take (st + A.length - st) = A := by rw [Nat.add_sub_cancel_left]; simp
  have hrf : Log.replaceFrom ⟨st, A ++ [o]⟩ (st + A.length) [e] = ⟨st, A ++ [e]⟩ := by rw [Log.replaceFrom]; simp only [htake]
  have hg : garbage [o] [e] = o.data.drop e.data.length := by
    rw [garbage, if_pos (by simp), dataSize_cons, dataSize_nil, datBytes_cons, datBytes_nil, List.append_nil, Ent.bytes]
    rw [show le8 o.term ++ o.vtype :: o.data = (le8 o.term ++ [o.vtype]) ++ o.data by simp,
      show 9 + e.data.length + 0 = (le8 o.term ++ [o.vtype]).length + e.data.length by simp, ← List.drop_drop, List.drop_left' rfl]
  have ho : Log.overwritten ⟨st, A ++ [o]⟩ (st + A.length) [e] = ⟨st, A ++ [{ e with data := e.data ++ o.data.drop e.data.length }]⟩ := by
    rw [Log.overwritten, Log.replaceFrom]
    simp only [htake, hdrop, hg]; rfl
  obtain ⟨a, s', h1, h2, h3⟩ := step_writeAt hr (st + A.length) e (by simp) (by simp [Log.next]) hfirst (by
    rw [hrf]
    refine ⟨?_, ?_, hf3⟩
    · simp only [dataSize_append, dataSize_cons, dataSize_nil]; omega
    · simp only [Log.next, List.length_append, List.length_cons, List.length_nil]; omega)
  rw [ho] at h2
  obtain ⟨s'', g1, g2, -⟩ := open_ok h2.fits b hb
  rw [← h2.disk] at g1
  refine ⟨s', s'', h1, ?_, g1, g2.shows⟩
  rw [Op.run, wrap, rep_lastEntry h2]
  simp

example : ∃ s s' s'', Reach s ⟨1, [e3] ++ [e3]⟩ ∧ writeAt 2 e1 s = (.ok (), s') ∧ openOn s'.disk 7 = .ok s'' ∧
    (Op.run .lastEntry s'').1 = .ok (.ent (some ⟨6, 1, [9, 2, 3]⟩)) := by
  obtain ⟨s, h⟩ : ∃ s, Reach s ⟨1, [e3] ++ [e3]⟩ := by
    obtain ⟨s, h⟩ := reach_default
    obtain ⟨r, s', l', h1, h2, h3⟩ := C14_step_partial h.reach (.writeAt 2 e3) (by
      rw [h.first]; exact ⟨by decide, by decide, by decide, .inr (by decide), by decide, by decide, by decide⟩)
    obtain rfl := h2.2
    exact ⟨s', h3⟩
  obtain ⟨s', s'', h1, -, h2, h3⟩ := C17_not_stale_bytes h e1 (by decide) 7 (by decide)
  exact ⟨s, s', s'', h, h1, h2, h3.2.2.1⟩

/-! ## C18: compaction -/

/-- C18: `compact(i)` removes exactly the entries up to `i`; the rest keeps indexes, terms and content. -/
theorem C18_compact {s : Store} {l : Log} (h : Reach s l) (i : Nat) (hi : l.start ≤ i) (hf : i + 1 < 2 ^ 62) :
    ∃ s' l', compact i s = (.ok true, s') ∧ Reach s' l' ∧ Shows s' l' ∧ l'.start = i + 1 ∧ l.next ≤ l'.next ∧
      (i < l.next → l'.next = l.next) ∧ ∀ j, i < j → l'.get? j = l.get? j := by
  obtain ⟨a, s', h1, rfl, h2, h3⟩ := step_compact h.rep i hi hf
  have hr : Reach s' (l.dropTo i) :=
    .step (op := .compact i) (r := .bool true) h ⟨hi, hf⟩ (by rw [Op.run, wrap, h1]) ⟨rfl, rfl⟩
  refine ⟨s', _, h1, hr, hr.rep.shows, rfl, ?_, ?_, ?_⟩
  · simp only [Log.next, Log.dropTo, List.length_drop]; omega
  · simp only [Log.next, Log.dropTo, List.length_drop]; omega
  · intro j hj
    rw [get?_eq (l := l.dropTo i) (by simp only [Log.dropTo]; omega), get?_eq (by omega)]
    simp only [Log.dropTo]
    rw [List.getElem?_drop]
    congr 1; omega

example : ∃ s s', Reach s ⟨1, [e3, e3, e1]⟩ ∧ compact 2 s = (.ok true, s') ∧ Reach s' ⟨3, [e1]⟩ := by
  obtain ⟨s, h, -⟩ := reach_three
  obtain ⟨r, s', l', h1, h2, h3⟩ := C14_step_partial h (.compact 2) ⟨by decide, by decide⟩
  obtain ⟨rfl, rfl⟩ := h2
  refine ⟨s, s', h, ?_, h3⟩
  obtain ⟨s2, l2, g1, -⟩ := C18_compact h 2 (by decide) (by decide)
  rw [Op.run, wrap, g1] at h1
  cases h1; exact g1

/-! ## C19: packs -/

/-- C19: entries packed in one store and applied to another one that ends where they begin are there what they were in
the first, and what was before them is unchanged. Limits: a pack has less than 2^31 bytes, the result fits. -/
theorem C19_pack {s t : Store} {l m : Log} (hs : Reach s l) (ht : Reach t m) (i n : Nat) (hi : l.start ≤ i) (hn : i < l.next)
    (hpos : 0 < n) (hm : m.next = i) (hsize : dataSize (l.range i (i + n)) + 8 * n + 8 < 2 ^ 31)
    (hf : Log.Fits ⟨m.start, m.ents ++ l.range i (i + n)⟩) :
    ∃ p s' t' m', pack i n s = (.ok p, s') ∧ Reach s' l ∧ applyPack i p t = (.ok (), t') ∧ Reach t' m' ∧ Shows t' m' ∧
      m'.start = m.start ∧ m'.next = min (i + n) l.next ∧ (∀ j, i ≤ j → j < i + n → m'.get? j = l.get? j) ∧
      ∀ j, j < i → m'.get? j = m.get? j := by
  have hln : l.next = l.start + l.ents.length := rfl
  have hmn : m.next = m.start + m.ents.length := rfl
  have hlen : (l.range i (i + n)).length = min (i + n) l.next - i := by simp [Log.range]; omega
  have hne : l.range i (i + n) ≠ [] := by
    intro h0; rw [h0] at hlen; simp at hlen; omega
  have hwp : Within l s.cache.first (.pack i n) := ⟨hi, hpos, by omega, hsize⟩
  obtain ⟨p, s', h1, h2, h3⟩ := step_pack hs.rep i n hi hpos (by omega) hsize
  have hrs : Reach s' l := .step (op := .pack i n) (r := .bytes p) hs hwp (by rw [Op.run, wrap, h1]) ⟨⟨p, rfl, h2⟩, rfl⟩
  have hdrop : m.ents.drop (i - m.start) = [] := List.drop_of_length_le (by omega)
  have htake : m.ents.take (i - m.start) = m.ents := List.take_of_length_le (by omega)
  have hrf : m.replaceFrom i (l.range i (i + n)) = ⟨m.start, m.ents ++ l.range i (i + n)⟩ := by rw [Log.replaceFrom, htake]
  have hcl : m.Clean i (l.range i (i + n)) := .inr (by rw [hdrop, dataSize_nil]; omega)
  have hwa : Within m t.cache.first (.applyPack i p) := ⟨by omega, by omega, _, h2, hne, hcl, by rw [hrf]; exact hf⟩
  obtain ⟨a, t', g1, g2⟩ := step_applyPack ht.rep i p _ (by omega) (by omega) h2 hne (by rw [hrf]; exact hf)
  have hrt : Reach t' ⟨m.start, m.ents ++ l.range i (i + n)⟩ :=
    .step (op := .applyPack i p) (r := .done) ht hwa (by rw [Op.run, wrap, g1]) ⟨rfl, _, h2, hrf.symm⟩
  refine ⟨p, s', t', _, h1, hrs, g1, hrt, hrt.rep.shows, rfl, ?_, ?_, ?_⟩
  · simp only [Log.next, List.length_append, hlen]; omega
  · intro j hj1 hj2
    rw [get?_eq (by simp only; omega), get?_eq (by omega)]
    simp only [Log.range]
    rw [List.getElem?_append_right (by omega), List.getElem?_take, if_pos (by omega), List.getElem?_drop]
    congr 1; omega
  · intro j hj
    rw [Log.get?, Log.get?]
    simp only []
    split
    · rfl
    · rw [List.getElem?_append_left (by omega)]

example : ∃ s t, Reach s ⟨1, [e3, e3, e1]⟩ ∧ Reach t ⟨1, [e3, e1]⟩ ∧ (Log.mk 1 [e3, e1]).next = 3 ∧
    Log.Fits ⟨1, [e3, e1] ++ Log.range ⟨1, [e3, e3, e1]⟩ 3 (3 + 5)⟩ := by
  obtain ⟨s, h, -⟩ := reach_three
  obtain ⟨t, h'⟩ := reach_default
  exact ⟨s, t, h, h'.reach, rfl, by decide, by decide, by decide⟩

/-! ## C20: cache and files -/

/-- C20 (partial): in every reachable store an entry that is read, from the cache or not, is the one in the files. -/
theorem C20_cache_partial {s : Store} {l : Log} (h : Reach s l) (i : Nat) (e : Ent) (hi : l.start ≤ i)
    (hr : (Op.run (.entryAt i) s).1 = .ok (.ent (some e))) : Disk.entry s.disk l.start i = .ok e := by
  rw [(C14_reads h).2.2.2.1 i hi] at hr
  rw [h.rep.disk]
  exact disk_entry h.rep.fits (by simpa using hr)

example : ∃ s, Reach s ⟨1, [e3, e3, e1]⟩ ∧ (Op.run (.entryAt 3) s).1 = .ok (.ent (some e1)) ∧ Disk.entry s.disk 1 3 = .ok e1 := by
  obtain ⟨s, h, -⟩ := reach_three
  have h1 := (C14_reads h).2.2.2.1 3 (by decide)
  exact ⟨s, h, h1, C20_cache_partial h 3 e1 (by decide) h1⟩

/-- C20 fails for bounded caches: a write before the cached part leaves stale entries in the cache. With a cache of two
entries, after four appends and `write_at(2, e1)` the store ends at index 2, yet the old entry is still given for index 4
and the new one for index 5. -/
theorem C20_not_stale_cache :
    history 2 [.append e3, .append e3, .append e3, .append e3, .writeAt 2 e1, .nextSlot, .entryAt 4, .entryAt 5] =
      .ok [.nat 1, .nat 2, .nat 3, .nat 4, .done, .nat 3, .ent (some e3), .ent (some e1)] := by
  decide +kernel

/-- In the same store the entry just written cannot be read. -/
theorem C20_not_readable :
    history 2 [.append e3, .append e3, .append e3, .append e3, .writeAt 2 e1] = .ok [.nat 1, .nat 2, .nat 3, .nat 4, .done] ∧
    history 2 [.append e3, .append e3, .append e3, .append e3, .writeAt 2 e1, .entryAt 2] = .error .thrown := by
  decide +kernel

/-! ## C21: a crash during append -/

theorem upTo_idx (bs : List Byte) (d : Disk) :
    (bs.map (fun b (d : Disk) => { d with idx := d.idx ++ [b] })).foldl (fun d f => f d) d = { d with idx := d.idx ++ bs } := by
  induction bs generalizing d with
  | nil => simp
  | cons b bs ih => simp only [List.map_cons, List.foldl_cons, ih]; simp

theorem upTo_dat (bs : List Byte) (d : Disk) :
    (bs.map (fun b (d : Disk) => { d with dat := d.dat ++ [b] })).foldl (fun d f => f d) d = { d with dat := d.dat ++ bs } := by
  induction bs generalizing d with
  | nil => simp
  | cons b bs ih => simp only [List.map_cons, List.foldl_cons, ih]; simp

theorem appendEffects_upTo (d : Disk) (e : Ent) (n : Nat) : (appendEffects d e).upTo n d =
    ⟨d.idx ++ (le8 (BitVec.ofNat 64 d.dat.length)).take n, d.dat ++ e.bytes.take (n - 8), d.sti⟩ := by
  rw [Effects.upTo, appendEffects, List.take_append, List.foldl_append, ← List.map_take, ← List.map_take, upTo_idx, upTo_dat]
  simp

theorem bytes_take (e : Ent) (k : Nat) : e.bytes.take (9 + k) = Ent.bytes { e with data := e.data.take k } := by
  rw [Ent.bytes, Ent.bytes, List.take_append, List.take_of_length_le (by simp; omega), le8_length,
    show 9 + k - 8 = k + 1 by omega, List.take_succ_cons]

/-- The effects listed for `append` are what `append` does to the files. -/
theorem C21_effects {s : Store} {l : Log} (h : Reach s l) (e : Ent) (hf : Log.Fits ⟨l.start, l.ents ++ [e]⟩) :
    ∃ s', append e s = (.ok l.next, s') ∧ s'.disk = (appendEffects s.disk e).upTo (appendEffects s.disk e).length s.disk := by
  obtain ⟨a, s', h1, rfl, h2, -⟩ := step_append h.rep e hf
  refine ⟨s', h1, ?_⟩
  rw [appendEffects_upTo, h2.disk, h.rep.disk]
  have : (appendEffects ⟨idxBytes 0 l.ents, datBytes l.ents, le8 (BitVec.ofNat 64 l.start)⟩ e).length = 8 + e.bytes.length := by
    rw [appendEffects]; simp
  simp only [this]
  rw [List.take_of_length_le (by simp), List.take_of_length_le (by simp), idxBytes_append, datBytes_append]
  simp

/-- C21 (partial): what a crash at any moment of `append` leaves. With `n` of the `17 + payload` bytes written, the store
shows the log before if `n = 0`, cannot be opened if `0 < n < 17`, and shows the new entry with the first `n - 17` bytes
of its payload from there on. The property holds for `n = 0`, and for `n = 17 + payload` only. -/
theorem C21_crash_partial {s : Store} {l : Log} (h : Reach s l) (e : Ent) (hf : Log.Fits ⟨l.start, l.ents ++ [e]⟩)
    (n : Nat) (b : Int) (hb : b ≠ 0) :
    (n = 0 → ∃ s', openOn ((appendEffects s.disk e).upTo n s.disk) b = .ok s' ∧ Shows s' l) ∧
    (0 < n → n < 17 → openOn ((appendEffects s.disk e).upTo n s.disk) b = .error .thrown) ∧
    (17 ≤ n → ∃ s', openOn ((appendEffects s.disk e).upTo n s.disk) b = .ok s' ∧
      Shows s' ⟨l.start, l.ents ++ [{ e with data := e.data.take (n - 17) }]⟩) := by
  have hr := h.rep
  obtain ⟨hf1, hf2, hf3⟩ := hf
  simp only [dataSize_append, dataSize_cons, dataSize_nil, Log.next, List.length_append, List.length_cons, List.length_nil] at hf1 hf2 hf3
  rw [appendEffects_upTo, hr.disk]
  simp only [datBytes_length]
  refine ⟨?_, ?_, ?_⟩
  · rintro rfl
    obtain ⟨s', h1, h2, -⟩ := open_ok hr.fits b hb
    exact ⟨s', by simpa using h1, h2.shows⟩
  · intro h0 h17
    by_cases h8 : n < 8
    · rw [show n - 8 = 0 by omega, List.take_zero, List.append_nil]
      exact open_partIdx hr.fits (by simp; omega) (by simp; omega) b hb
    · rw [List.take_of_length_le (by simp; omega)]
      exact open_partDat hr.fits (by simp; omega) (by omega) b hb
  · intro h17
    have hsz : (e.data.take (n - 17)).length ≤ e.data.length := by rw [List.length_take]; omega
    have hfit : Log.Fits ⟨l.start, l.ents ++ [{ e with data := e.data.take (n - 17) }]⟩ := by
      refine ⟨?_, ?_, hf3⟩
      · simp only [dataSize_append, dataSize_cons, dataSize_nil]; omega
      · simp only [Log.next, List.length_append, List.length_cons, List.length_nil]; omega
    obtain ⟨s', h1, h2, -⟩ := open_ok hfit b hb
    refine ⟨s', ?_, h2.shows⟩
    rw [List.take_of_length_le (by simp; omega), show n - 8 = 9 + (n - 17) by omega, bytes_take]
    simp only [idxBytes_append, datBytes_append, idxBytes_cons, datBytes_cons, idxBytes_nil, datBytes_nil, List.append_nil, Nat.zero_add] at h1
    exact h1

example : ∃ s, Reach s ⟨1, [e3, e3, e1]⟩ ∧ Log.Fits ⟨1, [e3, e3, e1] ++ [e3]⟩ := by
  obtain ⟨s, h, -⟩ := reach_three
  exact ⟨s, h, by decide, by decide, by decide⟩

/-- C21 fails: a crash after the position has been written makes any store impossible to open. -/
theorem C21_not_openable {s : Store} {l : Log} (h : Reach s l) (e : Ent) (hf : Log.Fits ⟨l.start, l.ents ++ [e]⟩) (b : Int) (hb : b ≠ 0) :
    ∃ n, n < (appendEffects s.disk e).length ∧ openOn ((appendEffects s.disk e).upTo n s.disk) b = .error .thrown :=
  ⟨8, by rw [appendEffects]; simp [Ent.bytes]; omega, (C21_crash_partial h e hf 8 b hb).2.1 (by decide) (by decide)⟩

/-! ## C22: a crash during compact -/

/-- A store on an empty index file. -/
theorem open_noIdx (dat : List Byte) {st : Nat} (hst : st < 2 ^ 62) (b : Int) :
    ∃ s', openOn ⟨[], dat, le8 (BitVec.ofNat 64 st)⟩ b = .ok s' ∧ Shows s' ⟨st, []⟩ := by
  have hfb : ∀ {c s0 bs m : Nat} {st : File}, fillBuffer ⟨⟨[], ([] : List Byte).length, false⟩, ⟨dat, dat.length, false⟩, st, c, s0,
      ⟨s0, [], m⟩, bs⟩ = (.ok (), ⟨⟨[], 0, false⟩, ⟨dat, dat.length, false⟩, st, c, s0, ⟨s0, [], m⟩, bs⟩) := by
    intros
    rw [fillBuffer, bIdx se, bDat se, bget, bIdx tl, bDat tl, run_ite, if_neg (by simp), run_pure]
    simp
  have hi := init_eq (idx := []) (dat := dat) (st := st) (c := 0) (b := effBufSize b) (by omega) rfl
  rw [show cacheStart 0 st (effBufSize b) = st by rw [cacheStart, if_neg (by omega)], hfb] at hi
  refine ⟨_, by rw [openOn]; simp only [File.opened]; rw [hi], rfl, rfl, rfl, ?_, ?_⟩
  · intro i hi
    rw [Op.run, wrap, entryAt, bget]
    simp only [Cache.at] at hi ⊢
    have : (if i < st then none else ([] : List Ent)[i - st]?) = none := by split <;> rfl
    rw [this]
    simp only []
    rw [if_neg (by omega), bchk, if_pos (by omega), run_pure]
    simp [Log.get?]
  · intro i e he
    have := get?_some he
    simp only [Log.next, List.length_nil] at this
    omega

/-- The effects listed for a compaction of everything are what `compact` does to the files. -/
theorem C22_effects_all {s : Store} {l : Log} (h : Reach s l) (i : Nat) (hi : l.start ≤ i) (hn : l.next ≤ i + 1) (hf : i + 1 < 2 ^ 62) :
    ∃ s', compact i s = (.ok true, s') ∧ s'.disk = (compactAllEffects i).upTo 3 s.disk := by
  obtain ⟨a, s', h1, rfl, h2, -⟩ := step_compact h.rep i hi hf
  refine ⟨s', h1, ?_⟩
  have hd : l.dropTo i = ⟨i + 1, []⟩ := by
    rw [Log.dropTo, List.drop_of_length_le (by unfold Log.next at hn; omega)]
  rw [hd] at h2
  rw [h2.disk, h.rep.disk]
  simp only [Effects.upTo, compactAllEffects, List.take, List.foldl]
  have := overwrite_tail (l1 := []) (l2 := le8 (BitVec.ofNat 64 l.start)) (bs := le8 (BitVec.ofNat 64 (i + 1))) (p := 0) rfl (by simp)
  simp only [List.nil_append] at this
  rw [this]; rfl

/-- C22 fails when everything is compacted: a crash after the first or second effect leaves an empty log that begins at
the old start index, so indexes of removed entries are given out again. -/
theorem C22_not_all {s : Store} {l : Log} (h : Reach s l) (i : Nat) (b : Int) (n : Nat) (hn : n = 1 ∨ n = 2) :
    ∃ s', openOn ((compactAllEffects i).upTo n s.disk) b = .ok s' ∧ Shows s' ⟨l.start, []⟩ := by
  have hst : l.start < 2 ^ 62 := by have := h.rep.fits.2.1; unfold Log.next at this; omega
  rw [h.rep.disk]
  rcases hn with rfl | rfl
  · exact open_noIdx _ hst b
  · exact open_noIdx _ hst b

example : ∃ s s', Reach s ⟨1, [e3, e3, e1]⟩ ∧ openOn ((compactAllEffects 3).upTo 2 s.disk) 5 = .ok s' ∧ (Op.run .nextSlot s').1 = .ok (.nat 1) := by
  obtain ⟨s, h, -⟩ := reach_three
  obtain ⟨s', h1, h2⟩ := C22_not_all h 3 5 2 (.inr rfl)
  exact ⟨s, s', h, h1, h2.1⟩

/-- The effects listed for a compaction that keeps entries are what `compact` does to the files. -/
theorem C22_effects_part {s : Store} {l : Log} (h : Reach s l) (i : Nat) (hi : l.start ≤ i) (hn : i + 1 < l.next) :
    ∃ s' pos, compact i s = (.ok true, s') ∧ pos.length = 8 * (l.next - (i + 1)) ∧
      (∀ k, i < k → k < l.next → (dec8 ((pos.drop (8 * (k - (i + 1)))).take 8)).toNat = dataSize (l.range (i + 1) k)) ∧
      s'.disk = (compactPartEffects s.disk i (dataSize (l.range l.start (i + 1))) pos).upTo 5 s.disk ∧
      ∀ b, b ≠ 0 → ∃ t, openOn ((compactPartEffects s.disk i (dataSize (l.range l.start (i + 1))) pos).upTo 4 s.disk) b = .ok t ∧
        Shows t ⟨l.start, l.ents.drop (i + 1 - l.start)⟩ := by
  have hn0 : l.next = l.start + l.ents.length := rfl
  obtain ⟨hf1, hf2, hf3⟩ := h.rep.fits
  obtain ⟨a, s', h1, rfl, h2, -⟩ := step_compact h.rep i hi (by omega)
  obtain ⟨st0, ents⟩ := l
  obtain ⟨A, B, hAB, hA, hB⟩ : ∃ A B, ents = A ++ B ∧ ents.take (i + 1 - st0) = A ∧ ents.drop (i + 1 - st0) = B :=
    ⟨_, _, (List.take_append_drop _ _).symm, rfl, rfl⟩
  have hlen : ents.length = A.length + B.length := by rw [hAB]; simp
  have hAl : A.length = i + 1 - st0 := by rw [← hA]; simp only [List.length_take] at *; omega
  have hsz : dataSize ents = dataSize A + dataSize B := by rw [hAB]; simp
  simp only [Log.dropTo, hB] at h2 ⊢
  have hrA : Log.range ⟨st0, ents⟩ st0 (i + 1) = A := by simp [Log.range, hA]
  have hov : ∀ (X Y Z : List Byte), overwrite (X ++ Y) 0 Z = Z ++ (X ++ Y).drop Z.length := fun X Y Z => overwrite_split [] (X ++ Y) Z
  simp only at hf1 hf2 hf3 hn0 hi hn
  have hfour : (compactPartEffects s.disk i (dataSize A) (idxBytes 0 B)).upTo 4 s.disk = ⟨idxBytes 0 B, datBytes B, le8 (BitVec.ofNat 64 st0)⟩ := by
    rw [h.rep.disk]
    simp only [Effects.upTo, compactPartEffects, List.take, List.foldl]
    rw [hAB, datBytes_append, List.drop_left' (by simp), idxBytes_append, hov, hov, List.take_left' rfl]
    rw [show (datBytes A ++ datBytes B).length - dataSize A = (datBytes B).length by simp, List.take_left' rfl]
  refine ⟨s', idxBytes 0 B, h1, by simp only [idxBytes_length]; omega, ?_, ?_, ?_⟩
  · intro k hk1 hk2
    obtain ⟨X, x, Y, hes, hX, -, -⟩ := split_at B (k - (i + 1)) (by omega)
    have hsX := (size_at hes).1
    rw [idx_at hes, List.drop_left' (by simp; omega), List.take_left' (by simp), dec8_pos _ (by omega)]
    simp only [Log.range, hB]
    rw [hes, List.take_left' (by omega)]
  · rw [hrA]
    have : (compactPartEffects s.disk i (dataSize A) (idxBytes 0 B)).upTo 5 s.disk =
      { (compactPartEffects s.disk i (dataSize A) (idxBytes 0 B)).upTo 4 s.disk with
        sti := overwrite ((compactPartEffects s.disk i (dataSize A) (idxBytes 0 B)).upTo 4 s.disk).sti 0 (le8 (BitVec.ofNat 64 (i + 1))) } := rfl
    rw [this, hfour, h2.disk]
    have := overwrite_tail (l1 := []) (l2 := le8 (BitVec.ofNat 64 st0)) (bs := le8 (BitVec.ofNat 64 (i + 1))) (p := 0) rfl (by simp)
    simp only [List.nil_append] at this
    simp only [this]
  · intro b hb
    obtain ⟨t, g1, g2, -⟩ := open_ok (l := ⟨st0, B⟩) ⟨by simp only; omega, by simp only [Log.next]; omega, hf3⟩ b hb
    exact ⟨t, by rw [hrA, hfour]; exact g1, g2.shows⟩

/-- C22 fails when entries remain: a crash just before the new start index is written leaves a log in which every
remaining entry has the index of a removed one. `pos` are the positions of the remaining entries. -/
theorem C22_not_part {s : Store} {l : Log} (h : Reach s l) (i : Nat) (hi : l.start ≤ i) (hn : i + 1 < l.next) :
    ∃ pos s', compact i s = (.ok true, s') ∧
      s'.disk = (compactPartEffects s.disk i (dataSize (l.range l.start (i + 1))) pos).upTo 5 s.disk ∧
      ∀ b, b ≠ 0 → ∃ t, openOn ((compactPartEffects s.disk i (dataSize (l.range l.start (i + 1))) pos).upTo 4 s.disk) b = .ok t ∧
        ∀ k e, l.get? (i + 1 + k) = some e → (Op.run (.entryAt (l.start + k)) t).1 = .ok (.ent (some e)) := by
  obtain ⟨s', pos, h1, -, -, h2, h3⟩ := C22_effects_part h i hi hn
  refine ⟨pos, s', h1, h2, fun b hb => ?_⟩
  obtain ⟨t, g1, g2⟩ := h3 b hb
  refine ⟨t, g1, fun k e he => ?_⟩
  rw [g2.2.2.2.1 (l.start + k) (by simp)]
  rw [get?_eq (by simp), List.getElem?_drop]
  rw [get?_eq (by omega)] at he
  rw [← he]
  congr 4; simp only; omega

example : ∃ s, Reach s ⟨1, [e3, e3, e1]⟩ ∧ (1 : Nat) + 1 < (Log.mk 1 [e3, e3, e1]).next ∧
    (Log.mk 1 [e3, e3, e1]).get? (1 + 1 + 1) = some e1 := by
  obtain ⟨s, h, -⟩ := reach_three
  exact ⟨s, h, by decide, by decide⟩

/-- C22 (partial): what is left before the first and after the last effect of a compaction. -/
theorem C22_ends_partial {s : Store} {l : Log} (h : Reach s l) (i : Nat) (hi : l.start ≤ i) (hf : i + 1 < 2 ^ 62) (b : Int) (hb : b ≠ 0) :
    (∃ t, openOn s.disk b = .ok t ∧ Shows t l) ∧
    ∃ s' t, compact i s = (.ok true, s') ∧ openOn s'.disk b = .ok t ∧ Shows t (l.dropTo i) := by
  obtain ⟨t, g1, g2, -⟩ := C15_reopen h b hb
  obtain ⟨r, s', l', h1, h2, h3⟩ := C14_step_partial h (.compact i) ⟨hi, hf⟩
  obtain ⟨rfl, rfl⟩ := h2
  obtain ⟨t', g3, g4, -⟩ := C15_reopen h3 b hb
  obtain ⟨a, s2, k1, rfl, -⟩ := step_compact h.rep i hi hf
  rw [Op.run, wrap, k1] at h1
  cases h1
  exact ⟨⟨t, g1, g2⟩, s', t', k1, g3, g4⟩

/-! ## C23: failed reads -/

/-- C23 (partial): `entry_at` outside the log and `term_at` before it leave the store as it was. -/
theorem C23_reads_partial {s : Store} {l : Log} (h : Reach s l) (i : Nat) :
    (l.next ≤ i → entryAt i s = (.ok none, s)) ∧ (i < l.start → entryAt i s = (.error .thrown, s)) ∧
    (i < l.start → termAt i s = (.error .thrown, s)) :=
  ⟨rep_entryAt_none h.rep i, rep_entryAt_low h.rep i, rep_termAt_low h.rep i⟩

example : ∃ s, Reach s ⟨1, [e3, e3, e1]⟩ ∧ entryAt 9 s = (.ok none, s) := by
  obtain ⟨s, h, -⟩ := reach_three
  exact ⟨s, h, (C23_reads_partial h 9).1 (by decide)⟩

/-- C23 fails: after `term_at` of an index past the end no entry can be appended to any store. -/
theorem C23_not_term_at {s : Store} {l : Log} (h : Reach s l) (i : Nat) (hi : l.next ≤ i) (h31 : i - l.start < 2 ^ 31) :
    ∃ s', termAt i s = (.error .thrown, s') ∧ s'.disk = s.disk ∧ ∀ e, (append e s').1 = .error .thrown := by
  obtain ⟨s', h1, h2, h3⟩ := rep_termAt_high h.rep i hi h31
  exact ⟨s', h1, h3, fun e => append_bad e h2⟩

example : ∃ s s', Reach s ⟨1, [e3, e3, e1]⟩ ∧ termAt 4 s = (.error .thrown, s') ∧ (append e1 s').1 = .error .thrown := by
  obtain ⟨s, h, -⟩ := reach_three
  obtain ⟨s', h1, -, h2⟩ := C23_not_term_at h 4 (by decide) (by decide)
  exact ⟨s, s', h, h1, h2 _⟩

end Cs.LogStore
