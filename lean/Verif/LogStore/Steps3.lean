import Verif.LogStore.Steps2

/-! # The whole interface: one step, reachable stores (helper lemmas) -/

namespace Cs.LogStore
open Cs Cs.Buffer

theorem wrap_of {α : Type} {f : α → Res} {m : M Store α} {s : Store} {P : α → Store → Prop} (h : Runs (m s) P) :
    ∃ a s', wrap f m s = (.ok (f a), s') ∧ P a s' := by
  obtain ⟨a, s', h1, h2⟩ := h
  exact ⟨a, s', by rw [wrap, h1], h2⟩

theorem rep_nextSlot {s : Store} {l : Log} {C : List Ent} (h : Rep s l C) : nextSlot s = (.ok l.next, s) := by
  rw [nextSlot, bget, run_pure, h.start, h.count]; rfl
theorem rep_startIndex {s : Store} {l : Log} {C : List Ent} (h : Rep s l C) : startIndex s = (.ok l.start, s) := by
  rw [startIndex, bget, run_pure, h.start]
theorem rep_lastEntry {s : Store} {l : Log} {C : List Ent} (h : Rep s l C) :
    lastEntry s = (.ok (C.getLast?.getD ⟨0, 1, []⟩), s) := by
  rw [lastEntry, bget, run_pure, Cache.last, h.cached, List.getLast?_drop]
  have hC := h.sameLen
  rcases h.nonempty with h | ⟨h, h'⟩
  · rw [if_neg (by omega)]; rfl
  · rw [h, List.length_nil] at hC
    rw [List.eq_nil_of_length_eq_zero hC]; rfl

/-- One operation: the answer is the ideal one, and the store still represents the ideal log. -/
theorem step_all {s : Store} {l : Log} (h : Rep s l l.ents) (op : Op) (hw : Within l s.cache.first op) :
    ∃ r s' l', op.run s = (.ok r, s') ∧ Ideal l op r l' ∧ Rep s' l' l'.ents ∧
      ((∀ b, op ≠ .reopen b) → s'.bufSize = s.bufSize) ∧ (∀ b, op = .reopen b → s'.bufSize = effBufSize b) := by
  have hsame : ∀ {op : Op} {s' : Store} {l' : Log}, (∀ b, op ≠ .reopen b) → Rep' s.bufSize s' l' l'.ents →
      Rep s' l' l'.ents ∧ ((∀ b, op ≠ .reopen b) → s'.bufSize = s.bufSize) ∧ (∀ b, op = .reopen b → s'.bufSize = effBufSize b) :=
    fun ho hr => ⟨hr.1, fun _ => hr.2, fun b hb => absurd hb (ho b)⟩
  cases op with
  | nextSlot => exact ⟨_, s, l, by rw [Op.run, wrap, rep_nextSlot h], ⟨rfl, rfl⟩, hsame (by simp) ⟨h, rfl⟩⟩
  | startIndex => exact ⟨_, s, l, by rw [Op.run, wrap, rep_startIndex h], ⟨rfl, rfl⟩, hsame (by simp) ⟨h, rfl⟩⟩
  | lastEntry => exact ⟨_, s, l, by rw [Op.run, wrap, rep_lastEntry h], ⟨rfl, rfl⟩, hsame (by simp) ⟨h, rfl⟩⟩
  | entryAt i =>
    obtain ⟨a, s', h1, rfl, h3⟩ := wrap_of (f := .ent) (step_entryAt h i hw)
    rw [view_self] at h1
    exact ⟨_, s', l, h1, ⟨rfl, rfl⟩, hsame (by simp) h3⟩
  | termAt i =>
    obtain ⟨a, s', h1, ⟨e, he, rfl⟩, h3⟩ := wrap_of (f := .term) (step_termAt h i hw.1 hw.2)
    rw [view_self] at he
    exact ⟨_, s', l, h1, ⟨⟨e, he, rfl⟩, rfl⟩, hsame (by simp) h3⟩
  | logEntries i j =>
    obtain ⟨a, s', h1, rfl, h3⟩ := wrap_of (f := .ents) (step_logEntries h i j hw.1)
    rw [view_self] at h1
    refine ⟨_, s', l, h1, ⟨?_, rfl⟩, hsame (by simp) h3⟩
    congr 1
    have hn : l.next = l.start + l.ents.length := rfl
    have hi := hw.1
    by_cases hc : i < j ∧ i < l.next
    · have hm : max j s.cache.first = j := Nat.max_eq_left (hw.2 hc.2 hc.1)
      rw [if_pos hc, hm, if_neg]
      intro h0
      have := congrArg List.length h0
      simp [Log.range] at this
      omega
    · rw [if_neg hc, if_pos]
      rw [Log.range]
      by_cases hij : i < j
      · rw [List.drop_of_length_le (by omega)]; simp
      · rw [show j - i = 0 by omega]; simp
  | append e =>
    obtain ⟨a, s', h1, rfl, h3⟩ := wrap_of (f := .nat) (step_append h e hw)
    exact ⟨_, s', _, h1, ⟨rfl, rfl⟩, hsame (by simp) h3⟩
  | writeAt i e =>
    obtain ⟨a, s', h1, h3⟩ := wrap_of (f := fun _ => .done) (step_writeAt h i e hw.1 hw.2.1 hw.2.2.1 hw.2.2.2.2)
    rw [clean_overwritten hw.1 hw.2.2.2.1] at h3
    exact ⟨_, s', _, h1, ⟨rfl, rfl⟩, hsame (by simp) h3⟩
  | compact i =>
    obtain ⟨a, s', h1, rfl, h3⟩ := wrap_of (f := .bool) (step_compact h i hw.1 hw.2)
    exact ⟨_, s', _, h1, ⟨rfl, rfl⟩, hsame (by simp) h3⟩
  | pack i n =>
    obtain ⟨a, s', h1, h2, h3⟩ := wrap_of (f := .bytes) (step_pack h i n hw.1 hw.2.1 hw.2.2.1 hw.2.2.2)
    exact ⟨_, s', _, h1, ⟨⟨a, rfl, h2⟩, rfl⟩, hsame (by simp) h3⟩
  | applyPack i p =>
    obtain ⟨hi, hn, es, hp, hne, hcl, hf⟩ := hw
    obtain ⟨a, s', h1, h3⟩ := wrap_of (f := fun _ => .done) (step_applyPack h i p es hi hn hp hne hf)
    rw [clean_overwritten hi hcl] at h3
    exact ⟨_, s', _, h1, ⟨rfl, es, hp, rfl⟩, hsame (by simp) h3⟩
  | reopen b =>
    obtain ⟨s', h1, h2, h3⟩ := open_ok h.fits b hw
    refine ⟨.done, s', l, ?_, ⟨rfl, rfl⟩, h2, fun hx => absurd rfl (hx b), fun b' hb' => by cases hb'; exact h3⟩
    rw [Op.run]
    simp only [h.disk]
    rw [h1]

/-! ## A pack determines its entries -/

theorem append_eq_len {α : Type} {a b c d : List α} (h : a ++ b = c ++ d) (hl : a.length = c.length) : a = c ∧ b = d :=
  List.append_inj h hl

theorem bytes_inj {e e' : Ent} (h : e.bytes = e'.bytes) : e = e' := by
  have h1 := decode_bytes e
  rw [h, decode_bytes] at h1
  exact ((Except.ok.injEq _ _).mp h1).symm

theorem pos_inj {a b : Nat} (ha : a < 2 ^ 64) (hb : b < 2 ^ 64) (h : le8 (BitVec.ofNat 64 a) = le8 (BitVec.ofNat 64 b)) : a = b := by
  have := congrArg (fun l => (dec8 l).toNat) h
  simpa only [dec8_pos _ ha, dec8_pos _ hb] using this

theorem body_inj (es : List Ent) : ∀ (es' : List Ent) (b b' : Nat), es.length = es'.length →
    b + dataSize es < 2 ^ 63 → b' + dataSize es' < 2 ^ 63 →
    idxBytes b es = idxBytes b' es' → datBytes es = datBytes es' → es = es' := by
  induction es with
  | nil => intro es' b b' hl _ _ _ _; cases es' with
    | nil => rfl
    | cons => simp at hl
  | cons e es ih =>
    intro es' b b' hl h1 h2 hi hd
    cases es' with
    | nil => simp at hl
    | cons e' es' =>
      have s1 : dataSize (e :: es) = 9 + e.data.length + dataSize es := rfl
      have s2 : dataSize (e' :: es') = 9 + e'.data.length + dataSize es' := rfl
      simp only [List.length_cons, Nat.succ.injEq] at hl
      rw [idxBytes_cons, idxBytes_cons] at hi
      obtain ⟨hi1, hi2⟩ := append_eq_len hi (by simp)
      obtain rfl := pos_inj (by omega) (by omega) hi1
      rw [datBytes_cons, datBytes_cons] at hd
      have hsz : e.bytes.length = e'.bytes.length := by
        rw [Ent.bytes_length, Ent.bytes_length]
        cases es with
        | nil =>
          cases es' with
          | nil =>
            have := congrArg List.length hd
            simp [Ent.bytes_length] at this
            omega
          | cons => simp at hl
        | cons x xs =>
          cases es' with
          | nil => simp at hl
          | cons y ys =>
            rw [idxBytes_cons, idxBytes_cons] at hi2
            have s3 : dataSize (x :: xs) = 9 + x.data.length + dataSize xs := rfl
            have s4 : dataSize (y :: ys) = 9 + y.data.length + dataSize ys := rfl
            have := pos_inj (by omega) (by omega) (append_eq_len hi2 (by simp)).1
            omega
      obtain ⟨hd1, hd2⟩ := append_eq_len hd hsz
      obtain rfl := bytes_inj hd1
      rw [ih es' _ _ hl (by omega) (by omega) hi2 hd2]

theorem PackOf.unique {p : List Byte} {es es' : List Ent} (h : PackOf p es) (h' : PackOf p es') : es = es' := by
  rcases h with ⟨rfl, rfl⟩ | ⟨hne, hs, b, hb, hp⟩
  · rcases h' with ⟨rfl, -⟩ | ⟨-, -, b', -, hp'⟩
    · rfl
    · have := congrArg List.length hp'; simp at this; omega
  · rcases h' with ⟨rfl, rfl⟩ | ⟨hne', hs', b', hb', hp'⟩
    · have := congrArg List.length hp; simp at this; omega
    · rw [hp] at hp'
      obtain ⟨h1, h2⟩ := append_eq_len hp' (by simp)
      obtain ⟨h3, h4⟩ := append_eq_len h2 (by simp)
      have h5 := congrArg (fun l => (dec4 l).toNat) h1
      simp only [dec4_le4, (toNat_ofNat32 (n := 8 * es.length) (by omega)).1,
        (toNat_ofNat32 (n := 8 * es'.length) (by omega)).1] at h5
      have hl : es.length = es'.length := by omega
      obtain ⟨h6, h7⟩ := append_eq_len (a := idxBytes b es) (c := idxBytes b' es') h4 (by simp [hl])
      exact body_inj es es' b b' hl (by omega) (by omega) h6 h7

theorem Ideal.unique {l l1 l2 : Log} {op : Op} {r1 r2 : Res} (h1 : Ideal l op r1 l1) (h2 : Ideal l op r2 l2) : l1 = l2 := by
  cases op with
  | applyPack i p =>
    obtain ⟨-, es, hp, rfl⟩ := h1
    obtain ⟨-, es', hp', rfl⟩ := h2
    rw [hp.unique hp']
  | nextSlot | startIndex | lastEntry | entryAt | termAt | logEntries | append | writeAt | compact | pack | reopen =>
    exact h1.2.trans h2.2.symm

/-! ## Reachable stores -/

theorem Reach.rep {s : Store} {l : Log} (h : Reach s l) : Rep s l l.ents := by
  induction h with
  | new hb ho =>
    obtain ⟨s', h1, h2, _⟩ := open_new _ hb
    rw [ho] at h1
    cases h1; exact h2
  | step _ hw hr hi ih =>
    obtain ⟨r', s', l', h1, h2, h3, -⟩ := step_all ih _ hw
    rw [hr] at h1
    cases h1
    rw [hi.unique h2]; exact h3

theorem ReachDefault.rep {s : Store} {l : Log} (h : ReachDefault s l) : Rep s l l.ents ∧ s.bufSize = 2 ^ 31 - 1 := by
  induction h with
  | new hb ho =>
    obtain ⟨s', h1, h2, h3⟩ := open_new _ (Int.ne_of_lt hb)
    rw [ho] at h1
    cases h1; exact ⟨h2, by rw [h3, effBufSize, if_pos hb]⟩
  | @step s s' l l' op r _ hw hb hr hi ih =>
    have hf := ih.1.default ih.2
    obtain ⟨r', s', l', h1, h2, h3, h4, h5⟩ := step_all ih.1 op (by rw [hf]; exact hw)
    rw [hr] at h1
    cases h1
    refine ⟨by rw [hi.unique h2]; exact h3, ?_⟩
    by_cases ho : ∃ b, op = .reopen b
    · obtain ⟨b, rfl⟩ := ho
      rw [h5 b rfl, effBufSize, if_pos (hb b rfl)]
    · rw [h4 fun b hb => ho ⟨b, hb⟩, ih.2]

theorem ReachDefault.first {s : Store} {l : Log} (h : ReachDefault s l) : s.cache.first = l.start :=
  h.rep.1.default h.rep.2

theorem ReachDefault.reach {s : Store} {l : Log} (h : ReachDefault s l) : Reach s l := by
  induction h with
  | new hb ho => exact .new (Int.ne_of_lt hb) ho
  | step h0 hw _ hr hi ih => exact .step ih (by rw [h0.first]; exact hw) hr hi

end Cs.LogStore
