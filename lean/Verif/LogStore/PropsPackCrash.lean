import Verif.LogStore.PropsCrash

/-!
# A crash while a pack is applied (C117)

`apply_pack` (fs_log_store.cxx 567-642) writes the positions to the stream of the index file and the entries to that of the data file, and
then flushes the index file and the data file (608-609). When the streams hand over what they have been given is not determined before
that: a stream may hand over any part of it at any time (a large block is usually written at once, a small one when it is flushed). So
after a crash the index file has some part of the new positions and the data file some part of the new entries.
-/

namespace Cs.LogStore
open Cs Cs.Buffer

/-! ## Specification -/

/-- The files when `a` bytes of the positions and `b` bytes of the entries of a pack have been added at the end, fs_log_store.cxx 594-609. -/
def packPart (d : Disk) (es : List Ent) (a b : Nat) : Disk :=
  { d with
    idx := d.idx ++ ((posns d.dat.length es).flatMap fun q => le8 (BitVec.ofNat 64 q)).take a
    dat := d.dat ++ (es.flatMap Ent.bytes).take b }

/-! ## Proofs -/

theorem read_cases (n : Nat) (f : File) : (∃ bs f', readBlock n f = (.ok bs, f')) ∨ ∃ f', readBlock n f = (.error .thrown, f') := by
  obtain ⟨bytes, p, bad⟩ := f
  rw [readBlock]
  by_cases h : 2 ^ 31 ≤ n
  · rw [if_pos h]; exact .inr ⟨_, rfl⟩
  · rw [if_neg h, read, run_bind_ok (run_get _)]
    simp only []
    cases bad with
    | true => rw [if_pos rfl]; exact .inr ⟨_, rfl⟩
    | false =>
      rw [if_neg (by simp)]
      by_cases h2 : p + n ≤ bytes.length
      · rw [if_pos h2]; exact .inl ⟨_, _, rfl⟩
      · rw [if_neg h2]; exact .inr ⟨_, rfl⟩

theorem decode_cases (bs : List Byte) : (∃ e, decode bs = .ok e) ∨ decode bs = .error .thrown := by
  rw [decode]
  split
  · exact .inr rfl
  · exact .inl ⟨_, rfl⟩

/-- Positions that are not whole cannot be read. -/
theorem fillRest_odd : ∀ (n : Nat) (P : List Byte) (L p : Nat) (s : Store), P.length / 8 = n → P.length % 8 ≠ 0 →
    (fillRest L p P s).1 = .error .thrown := by
  intro n
  induction n with
  | zero =>
    intro P L p s h1 h2
    exact fillRest_short (by omega) (by omega) L p s
  | succ n ih =>
    intro P L p s h1 h2
    obtain ⟨v, hv⟩ := le8_surj (P.take 8) (by rw [List.length_take]; omega)
    rw [← List.take_append_drop 8 P, ← hv, fillRest_cons]
    rcases read_cases (subU64 (dec8 (le8 v)).toNat p) s.dat with ⟨bs, f', hr⟩ | ⟨f', hr⟩
    · rw [run_bind_ok (run_onDat hr)]
      rcases decode_cases bs with ⟨e, he⟩ | he
      · rw [he, run_bind_ok (lift_ok _ _), run_bind_ok (run_modify _ _)]
        exact ih _ _ _ _ (by rw [List.length_drop]; omega) (by rw [List.length_drop]; omega)
      · rw [he, run_bind_err (lift_err _ _)]
    · have : onDat (readBlock (subU64 (dec8 (le8 v)).toNat p)) s = (.error .thrown, { s with dat := f' }) := by
        unfold onDat
        rw [hr]
      rw [run_bind_err this]

/-- If the data ends before the head of the last entry does, filling the cache fails. -/
theorem fillRest_lack (Y : List Ent) : ∀ (p L : Nat) (s : Store), s.dat.bad = false → s.dat.pos = p → s.dat.bytes.length = L →
    L < p + dataSize Y + 9 → p + dataSize Y < 2 ^ 31 → (fillRest L p (ends p Y) s).1 = .error .thrown := by
  induction Y with
  | nil =>
    intro p L s hb hp hl hs h31
    simp only [dataSize_nil] at hs h31
    rw [ends, fillRest, fillLoop_nil, run_bind_ok (run_pure _ _)]
    rcases read_cases (subU64 L p) s.dat with ⟨bs, f', hr⟩ | ⟨f', hr⟩
    · rw [run_bind_ok (run_onDat hr)]
      have hlen : bs.length < 9 := by
        have hpl : p ≤ L := by
          refine Nat.le_of_not_lt fun hlt => ?_
          have : readBlock (subU64 L p) s.dat = (.error .thrown, s.dat) := by
            rw [readBlock, if_pos (by unfold subU64; omega)]; rfl
          rw [this] at hr
          cases hr
        have hsub : subU64 L p = L - p := subU64_eq hpl (by omega)
        have hd : s.dat.bytes = s.dat.bytes.take p ++ (s.dat.bytes.drop p ++ []) := by rw [List.append_nil, List.take_append_drop]
        have := readBlock_ok hb hd (by rw [hp, List.length_take]; omega) (n := subU64 L p) (by rw [hsub, List.length_drop]; omega)
          (by rw [List.length_drop]; omega)
        rw [this] at hr
        injection hr with hr _
        injection hr with hr
        rw [← hr, List.length_drop]; omega
      rw [decode, if_pos hlen, run_bind_err (lift_err _ _)]
    · have : onDat (readBlock (subU64 L p)) s = (.error .thrown, { s with dat := f' }) := by
        unfold onDat
        rw [hr]
      rw [run_bind_err this]
  | cons e Y ih =>
    intro p L s hb hp hl hs h31
    simp only [dataSize_cons] at hs h31
    rw [ends, fillRest_cons, dec8_pos _ (by omega), subU64_eq (by omega) (by omega)]
    by_cases hlt : L < p + (9 + e.data.length)
    · obtain ⟨idx, ⟨bytes, pos, bad⟩, st, c, s0, ca, bs⟩ := s
      cases hb
      change pos = p at hp
      subst hp
      rw [eDat (read_eof (by rw [show bytes.length = L from hl]; omega) (by omega))]
    · have hd : s.dat.bytes = s.dat.bytes.take p ++ ((s.dat.bytes.drop p).take (9 + e.data.length) ++ (s.dat.bytes.drop p).drop (9 + e.data.length)) := by
        rw [List.take_append_drop, List.take_append_drop]
      have hlen : ((s.dat.bytes.drop p).take (9 + e.data.length)).length = 9 + e.data.length := by
        rw [List.length_take, List.length_drop]; omega
      have hlp : (s.dat.bytes.take p).length = p := by rw [List.length_take]; omega
      rw [run_bind_ok (run_onDat (readBlock_ok hb hd (by rw [hp, hlp]) (by rw [hlen]; omega) (by rw [hlen]; omega)))]
      rw [decode, if_neg (by rw [hlen]; omega), run_bind_ok (lift_ok _ _), run_bind_ok (run_modify _ _), hlp, hlen]
      exact ih _ _ _ hb rfl hl (by omega) (by omega)

/-- Opening files whose index file ends within a position, whatever the data file is. -/
theorem open_odd {l : Log} (hf : l.Fits) {q dat : List Byte} (h0 : 0 < q.length) (h8 : q.length < 8) (b : Int) :
    openOn ⟨idxBytes 0 l.ents ++ q, dat, le8 (BitVec.ofNat 64 l.start)⟩ b = .error .thrown := by
  obtain ⟨hf1, hn, hst1⟩ := hf
  have hst : l.start < 2 ^ 62 := by unfold Log.next at hn; omega
  have hcnt := count_le_dataSize l.ents
  refine open_err (st := l.start) (by omega) rfl ?_
  simp only []
  rw [show (idxBytes 0 l.ents ++ q).length / 8 = l.ents.length by simp; omega]
  generalize hfe : cacheStart l.ents.length l.start (effBufSize b) = f
  have hfk : l.start ≤ f ∧ f - l.start ≤ l.ents.length := by
    rw [← hfe, cacheStart]; split <;> omega
  obtain ⟨hk0, hk⟩ := hfk
  obtain ⟨A, X, hAX, hA⟩ : ∃ A X, l.ents = A ++ X ∧ A.length = f - l.start :=
    ⟨_, _, (List.take_append_drop (f - l.start) _).symm, by rw [List.length_take]; omega⟩
  have hlAX : l.ents.length = A.length + X.length := by rw [hAX]; simp
  have hidx : idxBytes 0 l.ents ++ q = idxBytes 0 A ++ (idxBytes (0 + dataSize A) X ++ q) := by
    rw [hAX, idxBytes_append, List.append_assoc]
  have hPl : (idxBytes (0 + dataSize A) X ++ q).length = 8 * X.length + q.length := by simp
  rw [hidx]
  obtain ⟨idx', hfb⟩ := fillBuffer_at (A := A) (P := idxBytes (0 + dataSize A) X ++ q)
    (dat := dat) (dp := dat.length) (c := l.ents.length) (s0 := l.start) (f := f) (m := effBufSize b) (bs := effBufSize b)
    (st := ⟨le8 (BitVec.ofNat 64 l.start), 8, false⟩) hA hk0 (by rw [hPl]; omega) (by rw [hPl]; omega)
    (by unfold Log.next at hn; omega)
  rw [hfb]
  generalize hP : idxBytes (0 + dataSize A) X ++ q = P at hPl
  by_cases hs : P.length < 8
  · exact fillFrom_short hs _ _
  · obtain ⟨v, hv⟩ := le8_surj (P.take 8) (by rw [List.length_take]; omega)
    rw [← List.take_append_drop 8 P, ← hv, fillFrom_eq]
    have hsk : ∃ f', seek (dec8 (le8 v)).toNat ⟨dat, dat.length, false⟩ = (.ok (), f') := by
      rw [seek, run_bind_ok (run_get _)]
      simp only []
      rw [if_neg (by simp)]
      split <;> exact ⟨_, rfl⟩
    obtain ⟨f', hsk⟩ := hsk
    rw [bDat hsk]
    exact fillRest_odd _ _ _ _ _ rfl (by rw [List.length_drop, hPl]; omega)

/-- Opening files whose data file ends before the head of the last entry does. -/
theorem open_lack {st : Nat} {F : List Ent} {x : Ent} (hf : Log.Fits ⟨st, F ++ [x]⟩) {dat : List Byte} (hd : dat.length < dataSize F + 9)
    (b : Int) (hb : b ≠ 0) :
    openOn ⟨idxBytes 0 (F ++ [x]), dat, le8 (BitVec.ofNat 64 st)⟩ b = .error .thrown := by
  have hb1 := effBufSize_pos hb
  obtain ⟨hf1, hn, hst1⟩ := hf
  simp only [Log.next, List.length_append, List.length_cons, List.length_nil, dataSize_append, dataSize_cons, dataSize_nil] at hf1 hn hst1
  have hcnt := count_le_dataSize F
  refine open_err (st := st) (by omega) rfl ?_
  simp only []
  rw [show (idxBytes 0 (F ++ [x])).length / 8 = F.length + 1 by simp]
  generalize hfe : cacheStart (F.length + 1) st (effBufSize b) = f
  have hfk : st ≤ f ∧ f - st ≤ F.length := by
    rw [← hfe, cacheStart]; split <;> omega
  obtain ⟨hk0, hk⟩ := hfk
  obtain ⟨A, Y, hAY, hA⟩ : ∃ A Y, F = A ++ Y ∧ A.length = f - st :=
    ⟨_, _, (List.take_append_drop (f - st) _).symm, by rw [List.length_take]; omega⟩
  have hlAY : F.length = A.length + Y.length := by rw [hAY]; simp
  have hsAY : dataSize F = dataSize A + dataSize Y := by rw [hAY]; simp
  have hidx : idxBytes 0 (F ++ [x]) = idxBytes 0 A ++ (le8 (BitVec.ofNat 64 (dataSize A)) ++ ends (dataSize A) Y) := by
    rw [← idxBytes_ends, hAY, List.append_assoc, idxBytes_append, idxBytes_append, Nat.zero_add]
    simp
  have hPl : (le8 (BitVec.ofNat 64 (dataSize A)) ++ ends (dataSize A) Y).length = 8 * Y.length + 8 := by
    rw [← idxBytes_ends]; simp
  rw [hidx]
  obtain ⟨idx', hfb⟩ := fillBuffer_at (A := A) (P := le8 (BitVec.ofNat 64 (dataSize A)) ++ ends (dataSize A) Y)
    (dat := dat) (dp := dat.length) (c := F.length + 1) (s0 := st) (f := f) (m := effBufSize b) (bs := effBufSize b)
    (st := ⟨le8 (BitVec.ofNat 64 st), 8, false⟩) hA hk0 (by rw [hPl]; omega) (by rw [hPl]; omega) (by omega)
  rw [hfb, fillFrom_eq, dec8_pos _ (by omega), bDat (sk (by omega))]
  exact fillRest_lack Y (dataSize A) dat.length _ rfl rfl rfl (by omega) (by omega)

theorem take_idxBytes (es : List Ent) : ∀ (b k : Nat), (idxBytes b es).take (8 * k) = idxBytes b (es.take k) := by
  induction es with
  | nil => intro b k; simp
  | cons e es ih =>
    intro b k
    cases k with
    | zero => simp
    | succ k =>
      rw [idxBytes_cons, List.take_succ_cons, idxBytes_cons, show 8 * (k + 1) = (le8 (BitVec.ofNat 64 b)).length + 8 * k by rw [le8_length]; omega,
        List.take_length_add_append, ih]

theorem dataSize_take_le (es : List Ent) (k : Nat) : dataSize (es.take k) ≤ dataSize es := by
  have : dataSize es = dataSize (es.take k) + dataSize (es.drop k) := by rw [← dataSize_append, List.take_append_drop]
  omega

/-- What `apply_pack` leaves on the disk: all of the positions and all of the entries. -/
theorem pack_effects {s : Store} {l : Log} (h : Reach s l) (p : List Byte) (es : List Ent) (hp : PackOf p es) (hne : es ≠ [])
    (hf : Log.Fits ⟨l.start, l.ents ++ es⟩) :
    ∃ s', applyPack l.next p s = (.ok (), s') ∧ s'.disk = packPart s.disk es (8 * es.length) (dataSize es) := by
  have hln : l.next = l.start + l.ents.length := rfl
  have hdrop : l.ents.drop (l.next - l.start) = [] := List.drop_of_length_le (by omega)
  have htake : l.ents.take (l.next - l.start) = l.ents := List.take_of_length_le (by omega)
  have hrf : l.replaceFrom l.next es = ⟨l.start, l.ents ++ es⟩ := by rw [Log.replaceFrom, htake]
  obtain ⟨_, s', h1, h2, -⟩ := step_applyPack h.rep l.next p es (by omega) (Nat.le_refl _) hp hne (by rw [hrf]; exact hf)
  refine ⟨s', h1, ?_⟩
  have hov : l.overwritten l.next es = ⟨l.start, l.ents ++ es⟩ := by
    rw [Log.overwritten, hdrop, garbage, if_pos (by simp), datBytes_nil, List.drop_nil, extendLast_nil, hrf]
  rw [hov] at h2
  rw [h2.disk, h.rep.disk]
  show _ = Disk.mk (idxBytes 0 l.ents ++ (idxBytes (datBytes l.ents).length es).take (8 * es.length)) (datBytes l.ents ++ (datBytes es).take (dataSize es)) _
  rw [List.take_of_length_le (by simp), List.take_of_length_le (by simp), idxBytes_append, datBytes_append, datBytes_length, Nat.zero_add]

/-- What is left by a crash, with whole positions. -/
theorem packPart_eq {s : Store} {l : Log} (h : Reach s l) (es : List Ent) (k b : Nat) :
    packPart s.disk es (8 * k) b = ⟨idxBytes 0 (l.ents ++ es.take k), datBytes l.ents ++ (datBytes es).take b, le8 (BitVec.ofNat 64 l.start)⟩ := by
  rw [h.rep.disk]
  show Disk.mk (idxBytes 0 l.ents ++ (idxBytes (datBytes l.ents).length es).take (8 * k)) (datBytes l.ents ++ (datBytes es).take b) _ = _
  rw [take_idxBytes, datBytes_length, idxBytes_append, Nat.zero_add]

/-- The positions of entries do not depend on the payload of the last one. -/
theorem posns_last (b : Nat) (F : List Ent) (x y : Ent) : posns b (F ++ [x]) = posns b (F ++ [y]) := by
  rw [posns_append, posns_append]; rfl

/-- Opening files whose positions are those of `F ++ [x]` and whose data reaches beyond the head of the last entry. -/
theorem open_reads {st : Nat} {F : List Ent} {x : Ent} (hf : Log.Fits ⟨st, F ++ [x]⟩) {dat : List Byte} (hd : dataSize F + 9 ≤ dat.length)
    (h31 : dat.length < 2 ^ 31) (b : Int) (hb : b ≠ 0) :
    ∃ s' es', openOn ⟨idxBytes 0 (F ++ [x]), dat, le8 (BitVec.ofNat 64 st)⟩ b = .ok s' ∧ Shows s' ⟨st, es'⟩ ∧ ReadAs (F ++ [x]) dat es' := by
  obtain ⟨es', h1, h2⟩ := reread (F ++ [⟨x.term, x.vtype, []⟩]) (by simp) 0 dat (by simp; omega)
  rw [posns_last 0 F _ x] at h1
  have hl : es'.length = (F ++ [x]).length := by rw [← posns_length 0 es', h1, posns_length]
  have hfit : Log.Fits ⟨st, es'⟩ := by
    refine ⟨?_, ?_, hf.2.2⟩
    · show dataSize es' < _
      rw [← datBytes_length, h2]; exact h31
    · have := hf.2.1
      unfold Log.next at this ⊢
      simp only at this ⊢
      omega
  obtain ⟨s', g1, g2, -⟩ := open_ok hfit b hb
  rw [idxBytes_posns h1, h2] at g1
  exact ⟨s', es', g1, g2.shows, h1, h2⟩

/-- C117, `_partial`: what a crash leaves while a pack is added at the end of the log, for every number of bytes that have reached the files.
If the index file ends within a position the store cannot be opened. If the data file ends before the head of the last entry that has a
position, it cannot be opened either. Otherwise it can, and shows the log before the call and the first entries of the pack, as many as
there are positions; the last of all takes what there is of the data. What is missing: see the theorems below; and packs that overwrite
entries. -/
theorem pack_crash_partial {s : Store} {l : Log} (h : Reach s l) (es : List Ent) (hf : Log.Fits ⟨l.start, l.ents ++ es⟩)
    (a n : Nat) (ha : a ≤ 8 * es.length) (b : Int) (hb : b ≠ 0) :
    (a % 8 ≠ 0 → openOn (packPart s.disk es a n) b = .error .thrown) ∧
    (∀ k, a = 8 * (k + 1) → n < dataSize (es.take k) + 9 → openOn (packPart s.disk es a n) b = .error .thrown) ∧
    (∀ k, a = 8 * k → dataSize (es.take (k - 1)) + (if k = 0 then 0 else 9) ≤ n → n ≤ dataSize es →
      ∃ s' es', openOn (packPart s.disk es a n) b = .ok s' ∧ Shows s' ⟨l.start, es'⟩ ∧
        (es' = [] ∧ l.ents = [] ∧ k = 0 ∨ ReadAs (l.ents ++ es.take k) (l.ents.flatMap Ent.bytes ++ (es.flatMap Ent.bytes).take n) es')) := by
  obtain ⟨hf1, hf2, hf3⟩ := hf
  have hfk : ∀ k, Log.Fits ⟨l.start, l.ents ++ es.take k⟩ := by
    intro k
    have := dataSize_take_le es k
    simp only [Log.next, dataSize_append, List.length_append] at hf1 hf2
    refine ⟨?_, ?_, hf3⟩
    · simp only [dataSize_append]; omega
    · simp only [Log.next, List.length_append, List.length_take]; omega
  have hcut : ∀ k, k < es.length → ∃ x, l.ents ++ es.take (k + 1) = (l.ents ++ es.take k) ++ [x] := by
    intro k hk
    exact ⟨es[k], by rw [List.take_succ_eq_append_getElem hk, List.append_assoc]⟩
  simp only [dataSize_append] at hf1
  refine ⟨fun h8 => ?_, fun k hk hn => ?_, fun k hk hn hn2 => ?_⟩
  · have e : packPart s.disk es a n = ⟨idxBytes 0 (l.ents ++ es.take (a / 8)) ++ ((idxBytes (dataSize l.ents) es).take a).drop (8 * (a / 8)),
        datBytes l.ents ++ (datBytes es).take n, le8 (BitVec.ofNat 64 l.start)⟩ := by
      rw [h.rep.disk]
      show Disk.mk (idxBytes 0 l.ents ++ (idxBytes (datBytes l.ents).length es).take a) (datBytes l.ents ++ (datBytes es).take n) _ = _
      rw [idxBytes_append, List.append_assoc, Nat.zero_add, ← take_idxBytes, datBytes_length]
      congr 2
      conv => lhs; rw [← List.take_append_drop (8 * (a / 8)) ((idxBytes (dataSize l.ents) es).take a)]
      rw [List.take_take, Nat.min_eq_left (by omega)]
    rw [e]
    exact open_odd (hfk (a / 8)) (by simp; omega) (by simp; omega) b
  · subst hk
    obtain ⟨x, hx⟩ := hcut k (by omega)
    have hfx := hfk (k + 1)
    rw [packPart_eq h, hx]
    rw [hx] at hfx
    refine open_lack hfx ?_ b hb
    simp only [List.length_append, datBytes_length, dataSize_append, List.length_take]
    omega
  · subst hk
    rw [packPart_eq h]
    have h31 : (datBytes l.ents ++ (datBytes es).take n).length < 2 ^ 31 := by
      simp only [List.length_append, datBytes_length, List.length_take]; omega
    have hst : l.start < 2 ^ 62 := by unfold Log.next at hf2; simp only at hf2; omega
    cases k with
    | zero =>
      rw [List.take_zero, List.append_nil]
      rcases l.ents.eq_nil_or_concat with hnil | ⟨F, x, hFx⟩
      · rw [hnil]
        obtain ⟨s', g1, g2⟩ := open_noIdx (datBytes [] ++ (datBytes es).take n) hst b
        exact ⟨s', [], g1, g2, .inl ⟨rfl, rfl, rfl⟩⟩
      · rw [List.concat_eq_append] at hFx
        have hfx := hfk 0
        rw [List.take_zero, List.append_nil, hFx] at hfx
        rw [hFx] at h31 ⊢
        obtain ⟨s', es', g1, g2, g3⟩ := open_reads hfx (dat := datBytes (F ++ [x]) ++ (datBytes es).take n) (by
          simp only [List.length_append, datBytes_length, dataSize_append, dataSize_cons, dataSize_nil]; omega) h31 b hb
        exact ⟨s', es', g1, g2, .inr g3⟩
    | succ k =>
      obtain ⟨x, hx⟩ := hcut k (by omega)
      have hfx := hfk (k + 1)
      rw [hx] at hfx ⊢
      rw [Nat.add_sub_cancel, if_neg (by omega)] at hn
      obtain ⟨s', es', g1, g2, g3⟩ := open_reads hfx (dat := datBytes l.ents ++ (datBytes es).take n) (by
        simp only [List.length_append, datBytes_length, dataSize_append, List.length_take]; omega) h31 b hb
      exact ⟨s', es', g1, g2, .inr g3⟩

/-- C117 holds if the two files happen to end at the same entry: then the first entries of the pack have been added. -/
theorem pack_crash_whole {s : Store} {l : Log} (h : Reach s l) (es : List Ent) (hf : Log.Fits ⟨l.start, l.ents ++ es⟩)
    (k : Nat) (hk : k ≤ es.length) (b : Int) (hb : b ≠ 0) :
    ∃ s', openOn (packPart s.disk es (8 * k) (dataSize (es.take k))) b = .ok s' ∧ Shows s' ⟨l.start, l.ents ++ es.take k⟩ := by
  have hle := dataSize_take_le es k
  have hn : dataSize (es.take (k - 1)) + (if k = 0 then 0 else 9) ≤ dataSize (es.take k) := by
    cases k with
    | zero => simp
    | succ k =>
      rw [List.take_succ_eq_append_getElem (by omega), Nat.add_sub_cancel, if_neg (by omega)]
      simp only [dataSize_append, dataSize_cons, dataSize_nil]; omega
  obtain ⟨s', es', g1, g2, g3⟩ := (pack_crash_partial h es hf (8 * k) (dataSize (es.take k)) (by omega) b hb).2.2 k rfl hn hle
  refine ⟨s', g1, ?_⟩
  rcases g3 with ⟨rfl, h1, rfl⟩ | ⟨h1, h2⟩
  · rw [h1]; exact g2
  · have ht : (datBytes es).take (dataSize (es.take k)) = datBytes (es.take k) := by
      conv => lhs; rw [← List.take_append_drop k es, datBytes_append, List.take_append_drop]
      rw [List.take_left' (by simp)]
    have : es' = l.ents ++ es.take k := by
      refine ents_unique (b := 0) h1 ?_
      show datBytes es' = _
      rw [show datBytes es' = datBytes l.ents ++ (datBytes es).take (dataSize (es.take k)) from h2, ht, datBytes_append]
    rw [← this]; exact g2

/-- C117 is false: when the process dies before the positions are on the disk, the last entry the log had before is shown with the
bytes of the pack behind its payload. -/
theorem pack_crash_extends {s : Store} {start : Nat} {F : List Ent} {x : Ent} (h : Reach s ⟨start, F ++ [x]⟩) (es : List Ent)
    (hf : Log.Fits ⟨start, (F ++ [x]) ++ es⟩) (b : Int) (hb : b ≠ 0) :
    ∃ s', openOn (packPart s.disk es 0 (dataSize es)) b = .ok s' ∧
      Shows s' ⟨start, F ++ [{ x with data := x.data ++ es.flatMap Ent.bytes }]⟩ := by
  obtain ⟨s', es', g1, g2, g3⟩ := (pack_crash_partial h es hf 0 (dataSize es) (by omega) b hb).2.2 0 rfl (by simp) (Nat.le_refl _)
  refine ⟨s', g1, ?_⟩
  rcases g3 with ⟨-, h1, -⟩ | ⟨h1, h2⟩
  · simp at h1
  · have : es' = F ++ [{ x with data := x.data ++ es.flatMap Ent.bytes }] := by
      refine ents_unique (b := 0) ?_ ?_
      · rw [h1, List.take_zero, List.append_nil]; exact posns_last 0 F _ _
      · rw [show datBytes es' = datBytes (F ++ [x]) ++ (datBytes es).take (dataSize es) from h2, List.take_of_length_le (by simp)]
        simp [datBytes, Ent.bytes]
    rw [← this]; exact g2

/-- C117 is false: when the process dies after the index file has been flushed and before the data file is, the store cannot be opened. -/
theorem pack_crash_not_openable {s : Store} {l : Log} (h : Reach s l) (es : List Ent) (hne : es ≠ [])
    (hf : Log.Fits ⟨l.start, l.ents ++ es⟩) (b : Int) (hb : b ≠ 0) :
    openOn (packPart s.disk es (8 * es.length) 0) b = .error .thrown := by
  obtain ⟨k, hk⟩ : ∃ k, es.length = k + 1 := ⟨es.length - 1, by have := List.length_pos_iff.2 hne; omega⟩
  exact (pack_crash_partial h es hf (8 * es.length) 0 (Nat.le_refl _) b hb).2.1 k (by rw [hk]) (by omega)

/-- C117 is false: when a part of the last payload has not reached the disk, the entry is shown with the rest of it missing. -/
theorem pack_crash_cuts {s : Store} {l : Log} (h : Reach s l) (es : List Ent) (x : Ent) (hf : Log.Fits ⟨l.start, l.ents ++ (es ++ [x])⟩)
    (m : Nat) (hm : m ≤ x.data.length) (b : Int) (hb : b ≠ 0) :
    ∃ s', openOn (packPart s.disk (es ++ [x]) (8 * (es.length + 1)) (dataSize es + 9 + m)) b = .ok s' ∧
      Shows s' ⟨l.start, l.ents ++ (es ++ [{ x with data := x.data.take m }])⟩ := by
  obtain ⟨s', es', g1, g2, g3⟩ := (pack_crash_partial h (es ++ [x]) hf (8 * (es.length + 1)) (dataSize es + 9 + m) (by simp) b hb).2.2
    (es.length + 1) rfl (by rw [Nat.add_sub_cancel, List.take_left' rfl, if_neg (by omega)]; omega)
    (by simp only [dataSize_append, dataSize_cons, dataSize_nil]; omega)
  refine ⟨s', g1, ?_⟩
  rcases g3 with ⟨-, -, h1⟩ | ⟨h1, h2⟩
  · cases h1
  · rw [List.take_of_length_le (by simp)] at h1
    have : es' = l.ents ++ (es ++ [{ x with data := x.data.take m }]) := by
      refine ents_unique (b := 0) ?_ ?_
      · rw [h1, ← List.append_assoc, ← List.append_assoc]; exact posns_last 0 _ _ _
      · rw [show datBytes es' = datBytes l.ents ++ (datBytes (es ++ [x])).take (dataSize es + 9 + m) from h2, datBytes_append, datBytes_append,
          datBytes_append, List.take_append, List.take_of_length_le (by simp; omega), datBytes_length,
          show dataSize es + 9 + m - dataSize es = 9 + m by omega]
        congr 2
        show (datBytes [x]).take (9 + m) = datBytes [_]
        rw [datBytes_cons, datBytes_cons, datBytes_nil, List.append_nil, List.append_nil, bytes_take]
    rw [← this]; exact g2

/-- A store of three entries, and a pack of two. -/
example : ∃ s p, Reach s ⟨1, [e3, e3] ++ [e1]⟩ ∧ PackOf p [e1, e3] ∧ Log.Fits ⟨1, ([e3, e3] ++ [e1]) ++ [e1, e3]⟩ ∧
    Log.Fits ⟨1, ([e3, e3] ++ [e1]) ++ ([e1] ++ [e3])⟩ ∧ 1 ≤ [e1, e3].length ∧ 2 ≤ e3.data.length := by
  obtain ⟨s, h, -⟩ := reach_three
  exact ⟨s, _, h, .inr ⟨by decide, by decide, 0, by decide, rfl⟩, ⟨by decide, by decide, by decide⟩, ⟨by decide, by decide, by decide⟩,
    by decide, by decide⟩

end Cs.LogStore
