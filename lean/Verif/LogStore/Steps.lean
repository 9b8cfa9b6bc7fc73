import Verif.LogStore.Refine

/-! # Every operation of the store refines the ideal log (helper lemmas) -/

namespace Cs.LogStore
open Cs Cs.Buffer

/-- The state a represented log is in, given by the parts that are not determined by the log. -/
abbrev repStore (l : Log) (C : List Ent) (ip dp sp f bs : Nat) : Store :=
  ⟨⟨idxBytes 0 l.ents, ip, false⟩, ⟨datBytes l.ents, dp, false⟩, ⟨le8 (BitVec.ofNat 64 l.start), sp, false⟩,
      l.ents.length, l.start, ⟨f, C.drop (f - l.start), bs⟩, bs⟩

theorem Rep.parts {s : Store} {l : Log} {C : List Ent} (h : Rep s l C) : ∃ ip dp sp f bs,
    s = repStore l C ip dp sp f bs ∧ WinOk l f bs ∧ 1 ≤ bs ∧ s.cache.first = f ∧ s.bufSize = bs := by
  obtain ⟨ip, dp, sp, hs⟩ := h.form
  exact ⟨ip, dp, sp, _, _, hs, h.win, h.maxPos, rfl, rfl⟩

/-- `s'` represents `l` with the same configured cache size. -/
def Rep' (bs : Nat) (s' : Store) (l : Log) (C : List Ent) : Prop := Rep s' l C ∧ s'.bufSize = bs

/-- The run returns a value and a state with `P`. -/
def Runs {σ α : Type} (x : Except Fault α × σ) (P : α → σ → Prop) : Prop := ∃ a s', x = (.ok a, s') ∧ P a s'

theorem runs_ok {σ α : Type} {a : α} {s' : σ} {P : α → σ → Prop} : Runs (.ok a, s') P ↔ P a s' := by
  constructor
  · rintro ⟨b, t, h, hp⟩; cases h; exact hp
  · exact fun h => ⟨a, s', rfl, h⟩

theorem Rep'.of {l : Log} {C : List Ent} {ib db sb : List Byte} {ip dp sp c s0 f bs : Nat} {ca : Cache} (hC : C.length = l.ents.length) (hw : WinOk l f bs) (hb : 1 ≤ bs)
    (hf : l.Fits) (h1 : ib = idxBytes 0 l.ents) (h2 : db = datBytes l.ents) (h3 : sb = le8 (BitVec.ofNat 64 l.start))
    (h4 : c = l.ents.length) (h5 : s0 = l.start) (h6 : ca = ⟨f, C.drop (f - l.start), bs⟩) :
    Rep' bs ⟨⟨ib, ip, false⟩, ⟨db, dp, false⟩, ⟨sb, sp, false⟩, c, s0, ca, bs⟩ l C := by
  subst h1 h2 h3 h4 h5 h6; exact ⟨Rep.mk' ip dp sp hC hw hb hf, rfl⟩

theorem cache_append_ok {l : Log} {C : List Ent} {f bs : Nat} (x e : Ent) (hC : C.length = l.ents.length) (h1 : l.start ≤ f)
    (h2 : f - l.start ≤ l.ents.length)
    (h3 : l.ents.length - (f - l.start) ≤ bs) (h4 : bs = 2 ^ 31 - 1 → f = l.start) (hb : 1 ≤ bs)
    (hf : Log.Fits ⟨l.start, l.ents ++ [x]⟩) :
    ∃ f', Cache.append ⟨f, C.drop (f - l.start), bs⟩ e = ⟨f', (C ++ [e]).drop (f' - l.start), bs⟩ ∧
      WinOk ⟨l.start, l.ents ++ [x]⟩ f' bs ∧ f ≤ f' := by
  have hcl := count_le_dataSize (l.ents ++ [x])
  have hd : ∀ k, k ≤ l.ents.length → (C ++ [e]).drop k = C.drop k ++ [e] :=
    fun k hk => List.drop_append_of_le_length (by omega)
  have hf1 := hf.1
  simp only [List.length_append, List.length_cons, List.length_nil] at hcl hf1
  by_cases hlt : bs < l.ents.length - (f - l.start) + 1
  · refine ⟨f + 1, ?_, ?_, by omega⟩
    · rw [Cache.append, if_pos (by simpa [hC] using hlt)]
      simp only [← hd _ h2, List.drop_drop]
      congr 2; omega
    · refine ⟨by simp; omega, .inl (by simp; omega), by simp; omega, fun h => ?_⟩
      exfalso; omega
  · refine ⟨f, ?_, ?_, by omega⟩
    · rw [Cache.append, if_neg (by simpa [hC] using hlt), hd _ h2]
    · exact ⟨h1, .inl (by simp; omega), by simp; omega, h4⟩

theorem WinOk.le {l : Log} {f bs : Nat} (h : WinOk l f bs) : f - l.start ≤ l.ents.length := by
  rcases h.2.1 with h | ⟨_, h⟩ <;> omega

theorem step_append {s : Store} {l : Log} {C : List Ent} (h : Rep s l C) (e : Ent) (hf : Log.Fits ⟨l.start, l.ents ++ [e]⟩) :
    Runs (append e s) fun r s' => r = l.next ∧ Rep' s.bufSize s' ⟨l.start, l.ents ++ [e]⟩ (C ++ [e]) := by
  have hC := h.sameLen
  obtain ⟨ip, dp, sp, f, bs, rfl, hw, hb, -, -⟩ := h.parts
  have hf1 := hf.1
  simp only [dataSize_append, dataSize_cons, dataSize_nil] at hf1
  obtain ⟨f', hc, hw', -⟩ := cache_append_ok e e hC hw.1 hw.le hw.2.2.1 hw.2.2.2 hb hf
  rw [append, bIdx se, bDat se, bDat tl, bIdx wrt, serialize_ok e (by omega), blift, bDat wrt, bmod]
  simp only []
  rw [bchk, bget, run_pure, runs_ok, hc]
  refine ⟨by simp [Log.next], ?_⟩
  refine Rep'.of (by simp [hC]) hw' hb hf ?_ ?_ rfl ?_ rfl rfl
  · rw [overwrite_end, idxBytes_append]; simp
  · rw [overwrite_end]; simp
  · simp

/-! ## Reading -/

theorem idx_at {es A B : List Ent} {e : Ent} (h : es = A ++ e :: B) :
    idxBytes 0 es = idxBytes 0 A ++ (le8 (BitVec.ofNat 64 (dataSize A)) ++
      idxBytes (dataSize A + (9 + e.data.length)) B) := by
  rw [h, idxBytes_append]; simp

theorem dat_at {es A B : List Ent} {e : Ent} (h : es = A ++ e :: B) :
    datBytes es = datBytes A ++ (e.bytes ++ datBytes B) := by
  rw [h]; simp

theorem size_at {es A B : List Ent} {e : Ent} (h : es = A ++ e :: B) :
    dataSize es = dataSize A + (9 + e.data.length + dataSize B) ∧ es.length = A.length + (B.length + 1) := by
  rw [h]; simp

theorem cache_at {l : Log} {C : List Ent} {f bs i : Nat} (hi : l.start ≤ i) (hf : l.start ≤ f) :
    (Cache.at ⟨f, C.drop (f - l.start), bs⟩ i) = if i < f then none else C[i - l.start]? := by
  rw [Cache.at]
  simp only [List.getElem?_drop]
  split
  · rfl
  · congr 1; omega

theorem get?_eq {l : Log} {i : Nat} (hi : l.start ≤ i) : l.get? i = l.ents[i - l.start]? := by
  rw [Log.get?, if_neg (by omega)]

/-- What the store shows: the files below the first cached index, the cache from there on. -/
def view (l : Log) (C : List Ent) (f : Nat) : Log := ⟨l.start, l.ents.take (f - l.start) ++ C.drop (f - l.start)⟩

theorem view_self (l : Log) (f : Nat) : view l l.ents f = l := by
  rw [view, List.take_append_drop]

theorem view_get {l : Log} {C : List Ent} {f i : Nat} (hC : C.length = l.ents.length) (hf : f - l.start ≤ l.ents.length)
    (h1 : l.start ≤ f) (hi : l.start ≤ i) : (view l C f).get? i = if i < f then l.ents[i - l.start]? else C[i - l.start]? := by
  rw [get?_eq (l := view l C f) hi]
  simp only [view]
  split
  · rw [List.getElem?_append_left (by simp; omega), List.getElem?_take, if_pos (by omega)]
  · rw [List.getElem?_append_right (by simp; omega), List.getElem?_drop]
    congr 1; simp; omega

theorem step_entryAt {s : Store} {l : Log} {C : List Ent} (h : Rep s l C) (i : Nat) (hi : l.start ≤ i) :
    Runs (entryAt i s) fun r s' => r = (view l C s.cache.first).get? i ∧ Rep' s.bufSize s' l C := by
  have hC := h.sameLen
  have hfits := h.fits
  obtain ⟨ip, dp, sp, f, bs, rfl, hw, hb, -, -⟩ := h.parts
  obtain ⟨hf1, hf2, hf3⟩ := hfits
  rw [entryAt, bget]
  simp only []
  rw [cache_at hi hw.1, view_get hC hw.le hw.1 hi]
  by_cases hif : i < f
  · rw [if_pos hif, if_pos hif]
    simp only []
    have hlt : f - l.start < l.ents.length := by rcases hw.2.1 with h | ⟨_, h⟩ <;> omega
    obtain ⟨A, e, B, hes, hA, -, -⟩ := split_at l.ents (i - l.start) (by omega)
    obtain ⟨hsz, hlen⟩ := size_at hes
    obtain ⟨e1, B', hB⟩ : ∃ e1 B', B = e1 :: B' := by
      cases B with
      | nil => simp at hlen; omega
      | cons e1 B' => exact ⟨e1, B', rfl⟩
    have hget : l.ents[i - l.start]? = some e := by rw [hes, List.getElem?_append_right (by omega)]; simp [hA]
    have hbl := e.bytes_length
    have hidx := idx_at hes
    have hidx' : idxBytes 0 l.ents = (idxBytes 0 A ++ le8 (BitVec.ofNat 64 (dataSize A))) ++
      (le8 (BitVec.ofNat 64 (dataSize A + (9 + e.data.length))) ++ idxBytes (dataSize A + (9 + e.data.length) + (9 + e1.data.length)) B') := by
      rw [hidx, hB]; simp
    have hnext : l.next = l.start + l.ents.length := rfl
    have hcl := count_le_dataSize l.ents
    rw [if_neg (c := i < l.start) (by omega), bchk, run_ite, if_neg (by omega), bIdx (sk (by omega)),
      bIdx (ru (by omega) hidx (by simp; omega)), bIdx (ru (by omega) hidx' (by simp)), bDat (sk (by omega)),
      bDat (rb (dat_at hes) (by simp) (by rw [subU64_eq (by omega) (by omega), intSize_eq (by omega)]; omega) (by omega)),
      decode_bytes, blift, run_pure, runs_ok]
    exact ⟨hget.symm, Rep'.of hC hw hb ⟨hf1, hf2, hf3⟩ rfl rfl rfl rfl rfl rfl⟩
  · rw [if_neg hif, if_neg hif]
    cases hg : C[i - l.start]? with
    | some e =>
      simp only []
      rw [run_pure, runs_ok]
      exact ⟨rfl, Rep'.of hC hw hb ⟨hf1, hf2, hf3⟩ rfl rfl rfl rfl rfl rfl⟩
    | none =>
      simp only []
      have := List.getElem?_eq_none_iff.1 hg
      rw [if_neg (c := i < l.start) (by omega), bchk, run_ite, if_pos (by omega), run_pure, runs_ok]
      exact ⟨rfl, Rep'.of hC hw hb ⟨hf1, hf2, hf3⟩ rfl rfl rfl rfl rfl rfl⟩

theorem step_termAt {s : Store} {l : Log} {C : List Ent} (h : Rep s l C) (i : Nat) (hi : l.start ≤ i) (hn : i < l.next) :
    Runs (termAt i s) fun r s' => (∃ e, (view l C s.cache.first).get? i = some e ∧ r = e.term) ∧ Rep' s.bufSize s' l C := by
  have hC := h.sameLen
  have hfits := h.fits
  obtain ⟨ip, dp, sp, f, bs, rfl, hw, hb, -, -⟩ := h.parts
  obtain ⟨hf1, hf2, hf3⟩ := hfits
  have hnext : l.next = l.start + l.ents.length := rfl
  obtain ⟨A, e, B, hes, hA, -, -⟩ := split_at l.ents (i - l.start) (by omega)
  obtain ⟨hsz, hlen⟩ := size_at hes
  have hcl := count_le_dataSize l.ents
  have hget : l.ents[i - l.start]? = some e := by rw [hes, List.getElem?_append_right (by omega)]; simp [hA]
  rw [termAt, bget]
  simp only []
  rw [cache_at hi hw.1, view_get hC hw.le hw.1 hi, run_ite]
  by_cases hif : i < f
  · rw [if_neg (by omega), if_pos hif]
    have hdat : datBytes l.ents = datBytes A ++ (le8 e.term ++ (e.vtype :: e.data ++ datBytes B)) := by
      rw [dat_at hes]; simp [Ent.bytes]
    rw [if_neg (c := i < l.start) (by omega), bchk, intSize_eq (by omega), Nat.mod_eq_of_lt (by omega), bIdx (sk (by omega)),
      bIdx (ru (by omega) (idx_at hes) (by simp; omega)), bDat (sk (by omega)),
      bDat (rb hdat (by simp) (by simp) (by simp)), run_pure, runs_ok, dec8_le8]
    exact ⟨⟨e, hget, rfl⟩, Rep'.of hC hw hb ⟨hf1, hf2, hf3⟩ rfl rfl rfl rfl rfl rfl⟩
  · have h1 := hw.1
    obtain ⟨c, hc⟩ : ∃ c, C[i - l.start]? = some c := ⟨_, List.getElem?_eq_getElem (by omega)⟩
    rw [if_pos (by simp; omega), if_neg hif, if_neg hif, hc, run_pure, runs_ok]
    exact ⟨⟨c, rfl, rfl⟩, Rep'.of hC hw hb ⟨hf1, hf2, hf3⟩ rfl rfl rfl rfl rfl rfl⟩

theorem readRange_ok (C : List Ent) : ∀ (A : List Ent) (d : Ent) (D : List Ent) (es : List Ent) (dp : Nat) (st : File)
    (c s0 bs : Nat) (ca : Cache), es = A ++ (C ++ d :: D) → dataSize es < 2 ^ 31 →
    Runs (readRange C.length (dataSize A)
      ⟨⟨idxBytes 0 es, 8 * (A.length + 1), false⟩, ⟨datBytes es, dp, false⟩, st, c, s0, ca, bs⟩)
      fun r s' => r = C ∧ ∃ p q, s' = ⟨⟨idxBytes 0 es, p, false⟩, ⟨datBytes es, q, false⟩, st, c, s0, ca, bs⟩ := by
  induction C with
  | nil =>
    intro A d D es dp st c s0 bs ca hes hs
    rw [List.length_nil, readRange, run_pure, runs_ok]
    exact ⟨rfl, _, _, rfl⟩
  | cons e C ih =>
    intro A d D es dp st c s0 bs ca hes hs
    obtain ⟨e1, B', hB⟩ : ∃ e1 B', C ++ d :: D = e1 :: B' := by cases C <;> exact ⟨_, _, rfl⟩
    have hes' : es = A ++ e :: (e1 :: B') := by rw [hes, List.cons_append, hB]
    obtain ⟨hsz, hlen⟩ := size_at hes'
    have hidx : idxBytes 0 es = (idxBytes 0 A ++ le8 (BitVec.ofNat 64 (dataSize A))) ++
      (le8 (BitVec.ofNat 64 (dataSize A + (9 + e.data.length))) ++ idxBytes (dataSize A + (9 + e.data.length) + (9 + e1.data.length)) B') := by
      rw [idx_at hes']; simp
    have hbl := e.bytes_length
    rw [List.length_cons, readRange, bIdx (ru (by omega) hidx (by simp; omega)), bDat (sk (by omega)),
      bDat (rb (dat_at hes') (by simp) (by rw [subU64_eq (by omega) (by omega), intSize_eq (by omega)]; omega) (by omega)),
      decode_bytes, blift]
    obtain ⟨r, s', hr, rfl, p, q, rfl⟩ := ih (A ++ [e]) d D es ((datBytes A).length + e.bytes.length) st c s0 bs ca (by rw [hes]; simp) hs
    simp only [dataSize_append, List.length_append, List.length_cons, List.length_nil, dataSize_cons, dataSize_nil] at hr
    rw [show (idxBytes 0 A ++ le8 (BitVec.ofNat 64 (dataSize A))).length + 8 = 8 * (A.length + (0 + 1) + 1) by simp; omega]
    rw [Nat.add_zero] at hr
    rw [run_bind_ok hr, run_pure, runs_ok]
    exact ⟨rfl, _, _, rfl⟩

theorem drop_split {α : Type} (l : List α) (a b : Nat) (h1 : a ≤ b) (h2 : b < l.length) :
    ∃ A C d D, l = A ++ (C ++ d :: D) ∧ A.length = a ∧ C.length = b - a ∧ l.drop a = C ++ d :: D ∧ l.drop b = d :: D := by
  have h3 : b < l.length := h2
  refine ⟨l.take a, (l.drop a).take (b - a), l[b], l.drop (b + 1), ?_, ?_, ?_, ?_, ?_⟩
  · have : (l.drop a).drop (b - a) = l[b] :: l.drop (b + 1) := by
      rw [List.drop_drop, show a + (b - a) = b by omega]; simp
    rw [← this, List.take_append_drop]; try simp
  · simp; omega
  · simp; omega
  · have : (l.drop a).drop (b - a) = l[b] :: l.drop (b + 1) := by
      rw [List.drop_drop, show a + (b - a) = b by omega]; simp
    rw [← this, List.take_append_drop]; try simp
  · simp

theorem view_range {l : Log} {C R : List Ent} {f i j : Nat} {d : Ent} {D : List Ent} (hi : l.start ≤ i) (hif : i < f)
    (hlt : f - l.start < l.ents.length) (hR : R.length = f - l.start - (i - l.start))
    (hd : l.ents.drop (i - l.start) = R ++ d :: D) :
    (view l C f).range i (max j f) = R ++ (C.drop (f - l.start)).take (max j f - f) := by
  have h1 : (l.ents.take (f - l.start)).drop (i - l.start) = R := by
    rw [List.drop_take, hd, List.take_left' (by omega)]
  simp only [Log.range, view]
  rw [List.drop_append_of_le_length (by simp; omega), h1, List.take_append, List.take_of_length_le (by omega)]
  congr 2; omega

/-- Reading `[i, j)`: the answer extends to the first cached index when `j` is below it. -/
theorem step_logEntries {s : Store} {l : Log} {C : List Ent} (h : Rep s l C) (i j : Nat) (hi : l.start ≤ i) :
    Runs (logEntries i j s) fun r s' =>
      r = (if i < j ∧ i < l.next then some (((view l C s.cache.first).range i (max j s.cache.first)).map some) else none) ∧
      Rep' s.bufSize s' l C := by
  have hC := h.sameLen
  have hfits := h.fits
  obtain ⟨ip, dp, sp, f, bs, rfl, hw, hb, -, -⟩ := h.parts
  obtain ⟨hf1, hf2, hf3⟩ := hfits
  have hnext : l.next = l.start + l.ents.length := rfl
  have hcl := count_le_dataSize l.ents
  rw [logEntries, bget]
  simp only []
  rw [run_ite, if_neg (by omega), run_ite]
  by_cases hc : i < j ∧ i < l.next
  · have hlt : f - l.start < l.ents.length := by
      rcases hw.2.1 with h | ⟨h, h'⟩
      · exact h
      · rw [h] at hnext; simp at hnext; omega
    rw [if_neg (by omega), if_pos hc]
    have h1 := hw.1
    by_cases hif : i < f
    · obtain ⟨A, R, d, D, hes, hA, hR, hda, -⟩ := drop_split l.ents (i - l.start) (f - l.start) (by omega) hlt
      have hidx : idxBytes 0 l.ents = idxBytes 0 A ++ (le8 (BitVec.ofNat 64 (dataSize A)) ++
          ((idxBytes 0 l.ents).drop (8 * A.length + 8))) := by
        obtain ⟨e1, B', hB⟩ : ∃ e1 B', R ++ d :: D = e1 :: B' := by cases R <;> exact ⟨_, _, rfl⟩
        have hes' : l.ents = A ++ e1 :: B' := by rw [hes, hB]
        have := idx_at hes'
        rw [this]
        congr 2
        rw [← List.append_assoc, List.drop_left' (by simp)]
      have hsz : dataSize l.ents = dataSize A + dataSize (R ++ d :: D) := by rw [hes]; simp
      obtain ⟨es, s', hr, rfl, p, q, rfl⟩ := readRange_ok R A d D l.ents dp
        ⟨le8 (BitVec.ofNat 64 l.start), sp, false⟩ l.ents.length l.start bs
        ⟨f, C.drop (f - l.start), bs⟩ hes hf1
      have hrange := view_range (C := C) (j := j) hi hif hlt hR hda
      have key : ∀ results : List (Option Ent), results.drop es.length = ((C.drop (f - l.start)).take (max j f - f)).map some →
          Runs ((do
            let r ← readFiles i results
            pure (some r)) (repStore l C ip dp sp f bs)) fun r s' => r = some (((view l C f).range i (max j f)).map some) ∧
            Rep' bs s' l C := by
        intro results hres
        rw [readFiles, bind_assoc, bchk, bind_assoc, bget, bind_assoc]
        simp only []
        rw [bIdx (sk (by omega)), bind_assoc]
        rw [bIdx (ru (by omega) hidx (by simp; omega)), bind_assoc]
        simp only [idxBytes_length]
        rw [show f - l.start - (i - l.start) = es.length by omega, show 8 * A.length + 8 = 8 * (A.length + 1) by omega,
          run_bind_ok hr, bpure, run_pure, runs_ok]
        refine ⟨?_, Rep'.of hC hw hb ⟨hf1, hf2, hf3⟩ rfl rfl rfl rfl rfl rfl⟩
        rw [placeAll, hres, hrange, List.map_append]
      rw [Cache.fill]
      simp only []
      have hdl : (C.drop (f - l.start)).length = l.ents.length - (f - l.start) := by rw [List.length_drop, hC]
      split
      · rw [blift]
        apply key
        rw [show max j f - f = 0 by omega]; simp
      · rw [if_neg (by omega), if_pos (by omega), blift]
        apply key
        rw [List.drop_left' (by simp; omega)]
        congr 1
        by_cases hjn : j ≤ l.next
        · congr 1; omega
        · rw [List.take_of_length_le (by omega), List.take_of_length_le (by omega)]
    · have hm : max j f = j := by omega
      rw [hm, Cache.fill]
      simp only []
      rw [if_neg (by omega)]
      have hr : Rep' bs (repStore l C ip dp sp f bs) l C := Rep'.of hC hw hb ⟨hf1, hf2, hf3⟩ rfl rfl rfl rfl rfl rfl
      have hdv : (view l C f).ents.drop (i - l.start) = C.drop (i - l.start) := by
        rw [view]
        simp only []
        rw [List.drop_append, List.drop_of_length_le (by simp; omega), List.drop_drop]
        simp; congr 1; omega
      have htk : (C.drop (i - l.start)).take (min (j - l.start) l.ents.length + l.start - i) =
          (C.drop (i - l.start)).take (j - i) := by
        by_cases hjn : j ≤ l.next
        · congr 1; omega
        · rw [List.take_of_length_le (by simp; omega), List.take_of_length_le (by simp; omega)]
      have hrg : (view l C f).range i j = (C.drop (i - l.start)).take (j - i) := by
        rw [Log.range]; change List.take (j - i) (List.drop (i - l.start) (view l C f).ents) = _; rw [hdv]
      split
      · rw [List.length_drop, if_pos (by omega), blift, run_pure, runs_ok, hrg]
        refine ⟨?_, hr⟩
        rw [List.drop_drop, show f - l.start + (i - f) = i - l.start by omega, htk]
      · obtain rfl : f = i := by omega
        rw [List.length_drop, if_pos (by omega), blift, run_pure, runs_ok, hrg]
        refine ⟨?_, hr⟩
        rw [htk]; simp
  · rw [if_pos (by omega), if_neg hc, run_pure, runs_ok]
    exact ⟨rfl, Rep'.of hC hw hb ⟨hf1, hf2, hf3⟩ rfl rfl rfl rfl rfl rfl⟩

end Cs.LogStore
