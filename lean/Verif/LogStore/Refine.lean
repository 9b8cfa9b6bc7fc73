import Verif.LogStore.Lemmas

/-! # Refinement: the file based store represents an ideal log (helper lemmas) -/

namespace Cs.LogStore
open Cs Cs.Buffer

theorem split_at {α : Type} (l : List α) (k : Nat) (h : k < l.length) :
    ∃ A e B, l = A ++ e :: B ∧ A.length = k ∧ l.take k = A ∧ l.drop k = e :: B := by
  refine ⟨l.take k, l[k], l.drop (k + 1), ?_, by simp; omega, rfl, by simp⟩
  simp

theorem fillFrom_eq (L : Nat) (v : U64) (rest : List Byte) : fillFrom L (le8 v ++ rest) = (do
    onDat (seek (dec8 (le8 v)).toNat)
    fillRest L (dec8 (le8 v)).toNat rest) := by
  have h1 : ¬ (le8 v ++ rest).length < 8 := by simp
  rw [fillFrom, List.take_left' (le8_length v), List.drop_left' (le8_length v), if_neg h1]
  rfl

theorem fillBuffer_ok {es : List Ent} {ip dp c s0 f m bs : Nat} {st : File}
    (hs : dataSize es < 2 ^ 31) (hf : s0 ≤ f) (hk : f - s0 < es.length ∨ es = []) (hfl : f < 2 ^ 63)
    (hm : es.length - (f - s0) ≤ m) :
    ∃ p q, fillBuffer ⟨⟨idxBytes 0 es, ip, false⟩, ⟨datBytes es, dp, false⟩, st, c, s0, ⟨f, [], m⟩, bs⟩ =
      (.ok (), ⟨⟨idxBytes 0 es, p, false⟩, ⟨datBytes es, q, false⟩, st, c, s0, ⟨f, es.drop (f - s0), m⟩, bs⟩) := by
  have hc := count_le_dataSize es
  rcases hk with hk | rfl
  · obtain ⟨A, e0, B, hes, hA, -, hdrop⟩ := split_at es _ hk
    rw [hdrop]
    have hlen : es.length = A.length + (B.length + 1) := by rw [hes]; simp
    have hsz : dataSize es = dataSize A + (9 + e0.data.length + dataSize B) := by rw [hes]; simp
    have hcA := count_le_dataSize A
    refine ⟨(idxBytes 0 A).length + (le8 (BitVec.ofNat 64 (dataSize A)) ++
         idxBytes (dataSize A + (9 + e0.data.length)) B).length, dataSize es, ?_⟩
    rw [fillBuffer, bIdx se, bDat se, bget, bIdx tl, bDat tl, run_ite, if_pos (by simp only [idxBytes_length]; omega)]
    have hsub : subU64 f s0 = A.length := by rw [subU64_eq hf (by omega), hA]
    simp only [idxBytes_length, datBytes_length]
    rw [hsub, bIdx (sk (by omega))]
    have hib' : idxBytes 0 es = idxBytes 0 A ++ ((le8 (BitVec.ofNat 64 (dataSize A)) ++
        idxBytes (dataSize A + (9 + e0.data.length)) B) ++ []) := by
      rw [hes, idxBytes_append]; simp
    rw [subU64_eq (by omega) (by omega)]
    rw [bIdx (rb hib' (by simp; omega) (by simp; omega) (by simp; omega))]
    rw [fillFrom_eq, dec8_pos _ (by omega), bDat (sk (by omega))]
    have := fillRest_ok B e0 (datBytes A)
      ⟨⟨idxBytes 0 es, (idxBytes 0 A).length + (le8 (BitVec.ofNat 64 (dataSize A)) ++
         idxBytes (dataSize A + (9 + e0.data.length)) B).length, false⟩, ⟨datBytes es, dataSize A, false⟩, st, c, s0,
         ⟨f, [], m⟩, bs⟩ rfl
      (by simp [hes]) (by simp) (by simp; omega) (by simp; omega)
    simp only [datBytes_length, dataSize_cons] at this
    rw [hsz, this, idxBytes_length]
    rfl
  · refine ⟨0, 0, ?_⟩
    rw [fillBuffer, bIdx se, bDat se, bget, bIdx tl, bDat tl, run_ite, if_neg (by simp), run_pure]
    simp

/-- The files of `s` represent the log `l`; the cache holds the end of the entries `C`. -/
structure Rep (s : Store) (l : Log) (C : List Ent) : Prop where
  idx : s.idx.bytes = idxBytes 0 l.ents
  idxOk : s.idx.bad = false
  dat : s.dat.bytes = datBytes l.ents
  datOk : s.dat.bad = false
  sti : s.sti.bytes = le8 (BitVec.ofNat 64 l.start)
  stiOk : s.sti.bad = false
  count : s.count = l.ents.length
  start : s.start = l.start
  first : l.start ≤ s.cache.first
  cached : s.cache.buf = C.drop (s.cache.first - l.start)
  sameLen : C.length = l.ents.length
  nonempty : s.cache.first - l.start < l.ents.length ∨ (l.ents = [] ∧ s.cache.first = l.start)
  max : s.cache.max = s.bufSize
  maxPos : 1 ≤ s.bufSize
  room : s.cache.buf.length ≤ s.bufSize
  default : s.bufSize = 2 ^ 31 - 1 → s.cache.first = l.start
  fits : l.Fits

theorem cacheStart_ge (c st b : Nat) : st ≤ cacheStart c st b := by
  unfold cacheStart; split <;> omega

/-- A store that represents `l` is given by its streams' positions, the first cached index and the cache size. -/
theorem Rep.form {s : Store} {l : Log} {C : List Ent} (h : Rep s l C) : ∃ ip dp sp,
    s = ⟨⟨idxBytes 0 l.ents, ip, false⟩, ⟨datBytes l.ents, dp, false⟩, ⟨le8 (BitVec.ofNat 64 l.start), sp, false⟩,
      l.ents.length, l.start, ⟨s.cache.first, C.drop (s.cache.first - l.start), s.bufSize⟩, s.bufSize⟩ := by
  obtain ⟨⟨ib, ip, ibad⟩, ⟨db, dp, dbad⟩, ⟨sb, sp, sbad⟩, c, s0, ⟨f, cb, m⟩, bs⟩ := s
  obtain ⟨h1, h2, h3, h4, h5, h6, h7, h8, h9, h10, h0, h11, h12, h13, h14, h15, h16⟩ := h
  simp only at *
  subst h1 h2 h3 h4 h5 h6 h7 h8 h10 h12
  exact ⟨ip, dp, sp, rfl⟩

/-- What is needed of the first cached index. -/
def WinOk (l : Log) (f bs : Nat) : Prop :=
  l.start ≤ f ∧ (f - l.start < l.ents.length ∨ (l.ents = [] ∧ f = l.start)) ∧ l.ents.length - (f - l.start) ≤ bs ∧
    (bs = 2 ^ 31 - 1 → f = l.start)

theorem Rep.mk' {l : Log} {C : List Ent} (ip dp sp : Nat) {f bs : Nat} (hC : C.length = l.ents.length) (hw : WinOk l f bs)
    (hb : 1 ≤ bs) (hf : l.Fits) :
    Rep ⟨⟨idxBytes 0 l.ents, ip, false⟩, ⟨datBytes l.ents, dp, false⟩, ⟨le8 (BitVec.ofNat 64 l.start), sp, false⟩,
      l.ents.length, l.start, ⟨f, C.drop (f - l.start), bs⟩, bs⟩ l C :=
  ⟨rfl, rfl, rfl, rfl, rfl, rfl, rfl, rfl, hw.1, rfl, hC, hw.2.1, rfl, hb, by simpa [hC] using hw.2.2.1, hw.2.2.2, hf⟩

theorem Rep.win {s : Store} {l : Log} {C : List Ent} (h : Rep s l C) : WinOk l s.cache.first s.bufSize :=
  ⟨h.first, h.nonempty, by have := h.room; rw [h.cached, List.length_drop, h.sameLen] at this; exact this, h.default⟩

theorem win_cacheStart {l : Log} {bs : Nat} (hb : 1 ≤ bs) (hf : l.Fits) :
    WinOk l (cacheStart l.ents.length l.start bs) bs := by
  have hcl := count_le_dataSize l.ents
  obtain ⟨hf1, hf2, hf3⟩ := hf
  have hcs : cacheStart l.ents.length l.start bs - l.start = l.ents.length - bs := by
    unfold cacheStart; split <;> omega
  have hcs2 := cacheStart_ge l.ents.length l.start bs
  refine ⟨hcs2, ?_, by omega, by omega⟩
  by_cases h0 : l.ents.length = 0
  · right; refine ⟨List.eq_nil_of_length_eq_zero h0, ?_⟩; omega
  · left; omega

theorem Rep.fill {l : Log} {ip dp sp bs : Nat} (hb : 1 ≤ bs) (hf : l.Fits) :
    ∃ s', fillBuffer ⟨⟨idxBytes 0 l.ents, ip, false⟩, ⟨datBytes l.ents, dp, false⟩,
        ⟨le8 (BitVec.ofNat 64 l.start), sp, false⟩, l.ents.length, l.start,
        ⟨cacheStart l.ents.length l.start bs, [], bs⟩, bs⟩ = (.ok (), s') ∧ Rep s' l l.ents ∧ s'.bufSize = bs := by
  have hw := win_cacheStart hb hf
  have hcl := count_le_dataSize l.ents
  obtain ⟨h1, h2, h3, h4⟩ := hw
  obtain ⟨p, q, h⟩ := fillBuffer_ok (es := l.ents) (ip := ip) (dp := dp) (c := l.ents.length) (s0 := l.start)
    (f := cacheStart l.ents.length l.start bs) (m := bs) (bs := bs) (st := ⟨le8 (BitVec.ofNat 64 l.start), sp, false⟩)
    hf.1 h1 (by rcases h2 with h2 | h2; exact .inl h2; exact .inr h2.1)
    (by have := hf.2.1; unfold Log.next at this; unfold cacheStart; split <;> omega) h3
  exact ⟨_, h, Rep.mk' _ _ _ rfl ⟨h1, h2, h3, h4⟩ hb hf, rfl⟩

end Cs.LogStore
