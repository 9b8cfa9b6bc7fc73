import Verif.LogStore.Steps3

/-! # Files as entries, failed reads, crashes (helper lemmas) -/

namespace Cs.LogStore
open Cs Cs.Buffer

theorem get?_some {l : Log} {i : Nat} {e : Ent} (h : l.get? i = some e) : l.start ≤ i ∧ i < l.next := by
  rw [Log.get?] at h
  split at h
  · exact absurd h (by simp)
  · obtain ⟨h1, -⟩ := List.getElem?_eq_some_iff.mp h
    unfold Log.next; omega

theorem Rep.shows {s : Store} {l : Log} (h : Rep s l l.ents) : Shows s l := by
  refine ⟨?_, ?_, ?_, ?_, ?_⟩
  · rw [Op.run, wrap, rep_nextSlot h]
  · rw [Op.run, wrap, rep_startIndex h]
  · rw [Op.run, wrap, rep_lastEntry h]
  · intro i hi
    obtain ⟨a, s', h1, rfl, h3⟩ := wrap_of (f := .ent) (step_entryAt h i hi)
    rw [view_self] at h1
    rw [Op.run, h1]
  · intro i e he
    obtain ⟨a, s', h1, ⟨e', he', rfl⟩, h3⟩ := wrap_of (f := .term) (step_termAt h i (get?_some he).1 (get?_some he).2)
    rw [view_self, he] at he'
    cases he'
    rw [Op.run, h1]

theorem disk_entry {l : Log} {i : Nat} {e : Ent} {sti : List Byte} (hf : l.Fits) (h : l.get? i = some e) :
    Disk.entry ⟨idxBytes 0 l.ents, datBytes l.ents, sti⟩ l.start i = .ok e := by
  obtain ⟨hi, hn⟩ := get?_some h
  rw [get?_eq hi] at h
  have hf1 := hf.1
  obtain ⟨A, e', B, hes, hA, he', -⟩ := split_at l.ents (i - l.start) (by unfold Log.next at hn; omega)
  obtain rfl : e' = e := by
    rw [hes, List.getElem?_append_right (by omega), hA, Nat.sub_self] at h
    simpa using h
  obtain ⟨hs, hlen⟩ := size_at hes
  have hbl := e'.bytes_length
  rw [Disk.entry]
  simp only []
  have h1 : (List.drop (8 * (i - l.start)) (idxBytes 0 l.ents)).take 8 = le8 (BitVec.ofNat 64 (dataSize A)) := by
    rw [idx_at hes, List.drop_left' (by simp; omega), List.take_left' (by simp)]
  rw [h1, dec8_pos _ (by omega)]
  cases B with
  | nil =>
    rw [if_neg (by simp [hlen]; omega), List.take_length, dat_at hes, List.drop_left' (by simp)]
    rw [datBytes_nil, List.append_nil, decode_bytes]
  | cons b B =>
    rw [if_pos (by simp [hlen]; omega)]
    have h2 : (List.drop (8 * (i - l.start) + 8) (idxBytes 0 l.ents)).take 8 =
        le8 (BitVec.ofNat 64 (dataSize A + (9 + e'.data.length))) := by
      rw [idx_at hes, ← List.append_assoc, List.drop_left' (by simp; omega), idxBytes_cons, List.take_left' (by simp)]
    rw [h2, dec8_pos _ (by omega), dat_at hes, ← List.append_assoc, List.take_left' (by simp [hbl]), List.drop_left' (by simp), decode_bytes]

/-! ## Failed reads -/

theorem rep_entryAt_none {s : Store} {l : Log} {C : List Ent} (h : Rep s l C) (i : Nat) (hi : l.next ≤ i) :
    entryAt i s = (.ok none, s) := by
  have hC := h.sameLen
  obtain ⟨ip, dp, sp, f, bs, rfl, hw, hb, -, -⟩ := h.parts
  have hn : l.next = l.start + l.ents.length := rfl
  have hle := hw.le
  rw [entryAt, bget]
  simp only [repStore]
  rw [cache_at (by omega) hw.1]
  have : (if i < f then none else C[i - l.start]?) = none := by
    split
    · rfl
    · exact List.getElem?_eq_none (by omega)
  rw [this]
  simp only []
  rw [if_neg (by omega), bchk, if_pos (by omega), run_pure]

theorem rep_entryAt_low {s : Store} {l : Log} {C : List Ent} (h : Rep s l C) (i : Nat) (hi : i < l.start) :
    entryAt i s = (.error .thrown, s) := by
  obtain ⟨ip, dp, sp, f, bs, rfl, hw, hb, -, -⟩ := h.parts
  have := hw.1
  rw [entryAt, bget]
  simp only [repStore, Cache.at]
  rw [if_pos (by omega)]
  simp only []
  rw [if_pos (by omega)]
  rfl

theorem rep_termAt_low {s : Store} {l : Log} {C : List Ent} (h : Rep s l C) (i : Nat) (hi : i < l.start) :
    termAt i s = (.error .thrown, s) := by
  obtain ⟨ip, dp, sp, f, bs, rfl, hw, hb, -, -⟩ := h.parts
  have := hw.1
  rw [termAt, bget]
  simp only [repStore]
  rw [if_neg (by omega), if_pos (by omega)]
  rfl

theorem read_eof {bytes : List Byte} {p n : Nat} (h : bytes.length < p + n) (hn : n < 2 ^ 31) :
    readBlock n ⟨bytes, p, false⟩ = (.error .thrown, ⟨bytes, p, true⟩) := by
  rw [readBlock, if_neg (by omega), read, run_bind_ok (run_get _)]
  simp only []
  rw [if_neg (by simp), if_neg (by omega)]
  rfl

theorem readULong_eof {bytes : List Byte} {p : Nat} (h : bytes.length < p + 8) :
    readULong ⟨bytes, p, false⟩ = (.error .thrown, ⟨bytes, p, true⟩) := by
  rw [readULong, run_bind_err (read_eof h (by omega))]

theorem rep_termAt_high {s : Store} {l : Log} {C : List Ent} (h : Rep s l C) (i : Nat) (hi : l.next ≤ i) (h31 : i - l.start < 2 ^ 31) :
    ∃ s', termAt i s = (.error .thrown, s') ∧ s'.idx.bad = true ∧ s'.disk = s.disk := by
  have hC := h.sameLen
  have hfits := h.fits
  obtain ⟨ip, dp, sp, f, bs, rfl, hw, hb, -, -⟩ := h.parts
  have hn : l.next = l.start + l.ents.length := rfl
  have h0 := hw.1
  have hle := hw.le
  rw [termAt, bget]
  simp only [repStore]
  rw [if_neg (by simp; omega), if_neg (by omega), bchk, intSize_eq h31, Nat.mod_eq_of_lt (by omega), bIdx (sk (by omega)),
    eIdx (readULong_eof (by simp; omega))]
  exact ⟨_, rfl, rfl, rfl⟩

theorem append_bad {s : Store} (e : Ent) (h : s.idx.bad = true) : (append e s).1 = .error .thrown := by
  obtain ⟨⟨ib, ip, _⟩, ⟨db, dp, dbad⟩, st, c, s0, ca, bs⟩ := s
  cases h
  have h1 : seekEnd (⟨ib, ip, true⟩ : File) = (.ok (), ⟨ib, ip, true⟩) := rfl
  have h2 : ∃ f', seekEnd (⟨db, dp, dbad⟩ : File) = (.ok (), f') := ⟨_, rfl⟩
  obtain ⟨f2, h2⟩ := h2
  have h3 : ∃ p, tell f2 = (.ok p, f2) := ⟨_, rfl⟩
  obtain ⟨p, h3⟩ := h3
  have h4 : ∀ bs, write bs (⟨ib, ip, true⟩ : File) = (.error .thrown, ⟨ib, ip, true⟩) := fun bs => by
    rw [write, run_bind_ok (run_get _)]; rfl
  rw [append, bIdx h1, bDat h2, bDat h3, eIdx (h4 _)]

/-! ## Opening files that are cut short -/

/-- Positions of the entries after each of `A`, which begin at `b`. -/
def ends (b : Nat) (A : List Ent) : List Byte :=
  match A with
  | [] => []
  | e :: A => le8 (BitVec.ofNat 64 (b + (9 + e.data.length))) ++ ends (b + (9 + e.data.length)) A

theorem idxBytes_ends (A : List Ent) : ∀ b, idxBytes b A ++ le8 (BitVec.ofNat 64 (b + dataSize A)) = le8 (BitVec.ofNat 64 b) ++ ends b A := by
  induction A with
  | nil => intro b; simp [ends]
  | cons e A ih => intro b; rw [idxBytes_cons, ends, List.append_assoc, ← ih, dataSize_cons]; simp [Nat.add_assoc]

theorem fillRest_skip {L : Nat} {rest : List Byte} (A : List Ent) : ∀ (pre suf : List Byte) (s : Store), s.dat.bad = false →
    s.dat.bytes = pre ++ (datBytes A ++ suf) → s.dat.pos = pre.length → pre.length + dataSize A < 2 ^ 31 →
    ∃ s', fillRest L pre.length (ends pre.length A ++ rest) s = fillRest L (pre.length + dataSize A) rest s' ∧
      s'.dat = { s.dat with pos := pre.length + dataSize A } := by
  induction A with
  | nil => intro pre suf s hb hd hp _; exact ⟨s, rfl, by rw [← hp]; simp⟩
  | cons e A ih =>
    intro pre suf s hb hd hp hs
    have hbl := e.bytes_length
    simp only [dataSize_cons] at hs
    have hd' : s.dat.bytes = pre ++ (e.bytes ++ (datBytes A ++ suf)) := by rw [hd, datBytes_cons, List.append_assoc]
    rw [ends, List.append_assoc, fillRest_cons, dec8_pos _ (by omega)]
    rw [run_bind_ok (run_onDat (readBlock_ok hb hd' hp (by rw [subU64_eq (by omega) (by omega)]; omega) (by omega)))]
    rw [decode_bytes, run_bind_ok (lift_ok _ _), run_bind_ok (run_modify _ _)]
    obtain ⟨s', h1, h2⟩ := ih (pre ++ e.bytes) suf
      { s with dat := { s.dat with pos := pre.length + e.bytes.length }, cache := s.cache.append e } hb
      (by simp [hd]) (by simp) (by simp [hbl]; omega)
    rw [List.length_append, hbl] at h1 h2
    refine ⟨s', ?_, ?_⟩
    · rw [hbl, h1, dataSize_cons, Nat.add_assoc]
    · rw [h2, dataSize_cons, Nat.add_assoc]

theorem short_list {p : List Byte} (h0 : 0 < p.length) (h8 : p.length < 8) (b : Nat) : fillLoop b p = throw .thrown := by
  match p, h0, h8 with
  | [_], _, _ | [_, _], _, _ | [_, _, _], _, _ | [_, _, _, _], _, _ | [_, _, _, _, _], _, _ | [_, _, _, _, _, _], _, _
  | [_, _, _, _, _, _, _], _, _ => rfl

theorem fillRest_short {p : List Byte} (h0 : 0 < p.length) (h8 : p.length < 8) (L b : Nat) (s : Store) :
    (fillRest L b p s).1 = .error .thrown := by
  rw [fillRest, short_list h0 h8]; rfl

theorem fillRest_tail {s : Store} {pre q : List Byte} (hb : s.dat.bad = false) (hd : s.dat.bytes = pre ++ q)
    (hp : s.dat.pos = pre.length) (hq : q.length < 9) (hs : pre.length + q.length < 2 ^ 32) :
    (fillRest (pre.length + q.length) pre.length [] s).1 = .error .thrown := by
  rw [fillRest, fillLoop_nil, run_bind_ok (run_pure _ _)]
  have hd' : s.dat.bytes = pre ++ (q ++ []) := by rw [hd, List.append_nil]
  rw [run_bind_ok (run_onDat (readBlock_ok hb hd' hp (by rw [subU64_eq (by omega) (by omega)]; omega) (by omega)))]
  rw [decode, if_pos hq, run_bind_err (s' := _)]
  rfl

/-- `fill_buffer` on files whose positions from the cache on are `P`. -/
theorem fillBuffer_at {A : List Ent} {P dat : List Byte} {dp c s0 f m bs : Nat} {st : File}
    (hA : A.length = f - s0) (hf : s0 ≤ f) (hP : 0 < P.length) (hsz : 8 * A.length + P.length < 2 ^ 31) (hfl : f < 2 ^ 63) :
    ∃ idx', ∀ ip, fillBuffer ⟨⟨idxBytes 0 A ++ P, ip, false⟩, ⟨dat, dp, false⟩, st, c, s0, ⟨f, [], m⟩, bs⟩ =
      fillFrom dat.length P ⟨idx', ⟨dat, dat.length, false⟩, st, c, s0, ⟨f, [], m⟩, bs⟩ := by
  have hsub : subU64 f s0 = A.length := by rw [subU64_eq hf (by omega), hA]
  refine ⟨⟨idxBytes 0 A ++ P, (idxBytes 0 A).length + P.length, false⟩, fun ip => ?_⟩
  rw [fillBuffer, bIdx se, bDat se, bget, bIdx tl, bDat tl, run_ite, if_pos (by simp; omega)]
  simp only []
  have hib' : idxBytes 0 A ++ P = idxBytes 0 A ++ (P ++ []) := by simp
  rw [hsub, bIdx (sk (by omega)), subU64_eq (by simp; omega) (by simp; omega), bIdx (rb hib' (by simp; omega) (by simp; omega) (by simp; omega))]

theorem fillFrom_short {P : List Byte} (h : P.length < 8) (L : Nat) (s : Store) : (fillFrom L P s).1 = .error .thrown := by
  rw [fillFrom, if_pos h]; rfl

theorem init_eq {idx dat : List Byte} {st c b : Nat} (hst : st < 2 ^ 64) (hc : idx.length / 8 = c) :
    init b ⟨⟨idx, idx.length, false⟩, ⟨dat, dat.length, false⟩, ⟨le8 (BitVec.ofNat 64 st), (le8 (BitVec.ofNat 64 st)).length, false⟩,
      0, 1, ⟨1, [], b⟩, b⟩ = fillBuffer ⟨⟨idx, idx.length, false⟩, ⟨dat, dat.length, false⟩, ⟨le8 (BitVec.ofNat 64 st), 8, false⟩, c, st,
      ⟨cacheStart c st b, [], b⟩, b⟩ := by
  have hsb : le8 (BitVec.ofNat 64 st) = [] ++ (le8 (BitVec.ofNat 64 st) ++ []) := by simp
  rw [init, bSti tl, if_pos (by simp), bSti (sk (by omega)), bSti (ru (p := 0) hst hsb rfl), bIdx tl, bmod]
  simp only []
  rw [bmod]
  simp only [hc, List.length_nil, Nat.zero_add]

theorem open_err {d : Disk} {b : Int} {st : Nat} (hst : st < 2 ^ 64) (hd : d.sti = le8 (BitVec.ofNat 64 st))
    (h : (fillBuffer ⟨⟨d.idx, d.idx.length, false⟩, ⟨d.dat, d.dat.length, false⟩, ⟨le8 (BitVec.ofNat 64 st), 8, false⟩, d.idx.length / 8, st,
      ⟨cacheStart (d.idx.length / 8) st (effBufSize b), [], effBufSize b⟩, effBufSize b⟩).1 = .error .thrown) :
    openOn d b = .error .thrown := by
  rw [← init_eq hst rfl] at h
  rw [openOn]
  simp only [File.opened]
  rw [hd]
  generalize init _ _ = r at h ⊢
  obtain ⟨r1, r2⟩ := r
  cases h; rfl

/-- Opening files whose index file ends within a position. -/
theorem open_partIdx {l : Log} (hf : l.Fits) {p : List Byte} (h0 : 0 < p.length) (h8 : p.length < 8) (b : Int) (hb : b ≠ 0) :
    openOn ⟨idxBytes 0 l.ents ++ p, datBytes l.ents, le8 (BitVec.ofNat 64 l.start)⟩ b = .error .thrown := by
  have hb1 := effBufSize_pos hb
  obtain ⟨hf1, hn, hst1⟩ := hf
  have hst : l.start < 2 ^ 62 := by unfold Log.next at hn; omega
  have hcnt := count_le_dataSize l.ents
  have hsb : le8 (BitVec.ofNat 64 l.start) = [] ++ (le8 (BitVec.ofNat 64 l.start) ++ []) := by simp
  refine open_err (st := l.start) (by omega) rfl ?_
  simp only []
  rw [show (idxBytes 0 l.ents ++ p).length / 8 = l.ents.length by simp; omega]
  generalize hfe : cacheStart l.ents.length l.start (effBufSize b) = f
  have hfk : l.start ≤ f ∧ (f - l.start < l.ents.length ∨ (l.ents = [] ∧ f = l.start)) := by
    have := (win_cacheStart (l := l) hb1 ⟨hf1, hn, hst1⟩)
    rw [hfe] at this; exact ⟨this.1, this.2.1⟩
  obtain ⟨hk0, hk⟩ := hfk
  rcases hk with hk | ⟨hk, hk'⟩
  · obtain ⟨A, e, B, hes, hA, -, -⟩ := split_at l.ents _ hk
    obtain ⟨hs, hlen⟩ := size_at hes
    have hne : e :: B ≠ [] := by simp
    obtain ⟨X, x, hX⟩ : ∃ X x, e :: B = X ++ [x] := ⟨_, _, (List.dropLast_concat_getLast hne).symm⟩
    have hcX := count_le_dataSize X
    have hsX : 9 + e.data.length + dataSize B = dataSize X + (9 + x.data.length) := by
      have := congrArg dataSize hX; simpa using this
    have hlX : B.length + 1 = X.length + 1 := by have := congrArg List.length hX; simpa using this
    have hpos : idxBytes 0 l.ents ++ p = idxBytes 0 A ++ (le8 (BitVec.ofNat 64 (dataSize A)) ++ (ends (dataSize A) X ++ p)) := by
      rw [hes, idxBytes_append, hX, idxBytes_append, List.append_assoc]
      simp only [idxBytes_cons, idxBytes_nil, List.append_nil, Nat.zero_add]
      rw [idxBytes_ends]; simp
    have hda : datBytes l.ents = datBytes A ++ (datBytes X ++ x.bytes) := by rw [hes, hX]; simp
    have hlp := congrArg List.length hpos
    simp only [List.length_append, idxBytes_length, le8_length] at hlp
    rw [hpos]
    obtain ⟨idx', hfb⟩ := fillBuffer_at (A := A) (P := le8 (BitVec.ofNat 64 (dataSize A)) ++ (ends (dataSize A) X ++ p))
      (dat := datBytes l.ents) (dp := (datBytes l.ents).length) (c := l.ents.length)
      (s0 := l.start) (f := f) (m := effBufSize b) (bs := effBufSize b)
      (st := ⟨le8 (BitVec.ofNat 64 l.start), 8, false⟩) hA hk0 (by simp; omega)
      (by simp only [List.length_append, le8_length]; omega) (by unfold Log.next at hn; omega)
    rw [hfb, fillFrom_eq, dec8_pos _ (by omega), bDat (sk (by omega))]
    obtain ⟨s', h1, h2⟩ := fillRest_skip (L := (datBytes l.ents).length) (rest := p) X (datBytes A) x.bytes
      ⟨idx', ⟨datBytes l.ents, dataSize A, false⟩, ⟨le8 (BitVec.ofNat 64 l.start), 8, false⟩, l.ents.length, l.start,
        ⟨f, [], effBufSize b⟩, effBufSize b⟩ rfl hda (by simp) (by simp; omega)
    rw [datBytes_length A] at h1
    rw [h1]
    exact fillRest_short h0 h8 _ _ _
  · obtain ⟨idx', hfb⟩ := fillBuffer_at (A := []) (P := p)
      (dat := datBytes l.ents) (dp := (datBytes l.ents).length) (c := l.ents.length)
      (s0 := l.start) (f := f) (m := effBufSize b) (bs := effBufSize b)
      (st := ⟨le8 (BitVec.ofNat 64 l.start), 8, false⟩) (by simp [hk']) hk0 (by omega)
      (by simp; omega) (by unfold Log.next at hn; omega)
    rw [idxBytes_nil, List.nil_append] at hfb
    have : idxBytes 0 l.ents ++ p = p := by rw [hk]; rfl
    rw [this, hfb]
    exact fillFrom_short h8 _ _

/-- Opening files whose last entry lacks bytes of its term and type. -/
theorem open_partDat {l : Log} (hf : l.Fits) {q : List Byte} (hq : q.length < 9) (hroom : dataSize l.ents + 9 < 2 ^ 31)
    (b : Int) (hb : b ≠ 0) :
    openOn ⟨idxBytes 0 l.ents ++ le8 (BitVec.ofNat 64 (dataSize l.ents)), datBytes l.ents ++ q, le8 (BitVec.ofNat 64 l.start)⟩ b = .error .thrown := by
  have hb1 := effBufSize_pos hb
  obtain ⟨hf1, hn, hst1⟩ := hf
  have hst : l.start < 2 ^ 62 := by unfold Log.next at hn; omega
  have hcnt := count_le_dataSize l.ents
  have hsb : le8 (BitVec.ofNat 64 l.start) = [] ++ (le8 (BitVec.ofNat 64 l.start) ++ []) := by simp
  refine open_err (st := l.start) (by omega) rfl ?_
  simp only []
  rw [show (idxBytes 0 l.ents ++ le8 (BitVec.ofNat 64 (dataSize l.ents))).length / 8 = l.ents.length + 1 by simp]
  generalize hfe : cacheStart (l.ents.length + 1) l.start (effBufSize b) = f
  have hfk : l.start ≤ f ∧ f - l.start ≤ l.ents.length := by
    rw [← hfe, cacheStart]; split <;> omega
  obtain ⟨hk0, hk⟩ := hfk
  obtain ⟨A, X, hAX, hA⟩ : ∃ A X, l.ents = A ++ X ∧ A.length = f - l.start :=
    ⟨_, _, (List.take_append_drop (f - l.start) _).symm, by rw [List.length_take]; omega⟩
  have hsAX : dataSize l.ents = dataSize A + dataSize X := by rw [hAX]; simp
  have hlAX : l.ents.length = A.length + X.length := by rw [hAX]; simp
  have hpos : idxBytes 0 l.ents ++ le8 (BitVec.ofNat 64 (dataSize l.ents)) = idxBytes 0 A ++ (le8 (BitVec.ofNat 64 (dataSize A)) ++ (ends (dataSize A) X ++ [])) := by
    rw [hsAX, hAX, idxBytes_append, List.append_assoc, Nat.zero_add, idxBytes_ends]; simp
  have hlp := congrArg List.length hpos
  simp only [List.length_append, idxBytes_length, le8_length] at hlp
  rw [hpos]
  obtain ⟨idx', hfb⟩ := fillBuffer_at (A := A) (P := le8 (BitVec.ofNat 64 (dataSize A)) ++ (ends (dataSize A) X ++ []))
    (dat := datBytes l.ents ++ q) (dp := (datBytes l.ents ++ q).length) (c := l.ents.length + 1)
    (s0 := l.start) (f := f) (m := effBufSize b) (bs := effBufSize b)
    (st := ⟨le8 (BitVec.ofNat 64 l.start), 8, false⟩) hA hk0 (by simp; omega)
    (by simp only [List.length_append, le8_length]; omega) (by unfold Log.next at hn; omega)
  rw [hfb, fillFrom_eq, dec8_pos _ (by omega), bDat (sk (by omega))]
  obtain ⟨s', h1, h2⟩ := fillRest_skip (L := (datBytes l.ents ++ q).length) (rest := []) X (datBytes A) q
    ⟨idx', ⟨datBytes l.ents ++ q, dataSize A, false⟩, ⟨le8 (BitVec.ofNat 64 l.start), 8, false⟩, l.ents.length + 1, l.start,
      ⟨f, [], effBufSize b⟩, effBufSize b⟩ rfl (by rw [hAX]; simp) (by simp) (by simp; omega)
  rw [datBytes_length A] at h1 h2
  rw [h1]
  have := fillRest_tail (s := s') (pre := datBytes l.ents) (q := q) (by rw [h2]) (by rw [h2]) (by rw [h2]; simp; omega) hq
    (by simp; omega)
  rw [datBytes_length, hsAX] at this
  rw [List.length_append, datBytes_length, hsAX]
  exact this

/-- A cache of size 0 cannot be filled. -/
theorem open_zero {l : Log} (hf : l.Fits) (hne : l.ents ≠ []) :
    openOn ⟨idxBytes 0 l.ents, datBytes l.ents, le8 (BitVec.ofNat 64 l.start)⟩ 0 = .error .thrown := by
  obtain ⟨hf1, hn, hst1⟩ := hf
  have hst : l.start < 2 ^ 62 := by unfold Log.next at hn; omega
  have hcnt := count_le_dataSize l.ents
  have hlen := List.length_pos_iff.2 hne
  have hsb : le8 (BitVec.ofNat 64 l.start) = [] ++ (le8 (BitVec.ofNat 64 l.start) ++ []) := by simp
  refine open_err (st := l.start) (by omega) rfl ?_
  simp only []
  rw [show (idxBytes 0 l.ents).length / 8 = l.ents.length by simp]
  rw [show cacheStart l.ents.length l.start (effBufSize 0) = l.ents.length + l.start by
    rw [cacheStart, if_pos (by simpa [effBufSize] using hlen)]; simp [effBufSize]]
  rw [fillBuffer, bIdx se, bDat se, bget, bIdx tl, bDat tl, run_ite, if_pos (by simp; omega)]
  simp only []
  have hib' : idxBytes 0 l.ents = idxBytes 0 l.ents ++ ([] ++ []) := by simp
  have h1 : subU64 (l.ents.length + l.start) l.start = l.ents.length := by
    rw [subU64_eq (by omega) (by unfold Log.next at hn; omega)]; omega
  rw [h1, bIdx (sk (by omega)), subU64_eq (by simp; omega) (by simp; omega),
    bIdx (rb hib' (by simp; omega) (by simp; omega) (by simp))]
  exact fillFrom_short (by simp) _ _

end Cs.LogStore
