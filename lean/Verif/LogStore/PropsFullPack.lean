import Verif.LogStore.FullPack
import Verif.LogStore.PropsPackCrash
import Verif.LogStore.PropsFullWrite

/-!
# A pack that cannot be applied leaves the log as it was (C118)
-/

namespace Cs.LogStore
open Cs Cs.Buffer

/-! ## Specification -/

/-- There is not enough room for all positions or all entries of the pack. -/
def FullP.Fails (w : FullP) (es : List Ent) : Prop := (∃ r, w.idx = some r ∧ r < 8 * es.length) ∨ ∃ r, w.dat = some r ∧ r < dataSize es

/-- How many of `n` bytes are written. -/
def roomFor (room : Option Nat) (n : Nat) : Nat := match room with
  | none => n
  | some r => min r n

/-- Whether `n` bytes are too many. -/
def tooMany (room : Option Nat) (n : Nat) : Bool := match room with
  | none => false
  | some r => decide (r < n)

/-! ## Proofs -/

/-- Writing at the end of a file. -/
theorem putRoom_end (room : Option Nat) (X bs : List Byte) : ∃ p, putRoom room bs ⟨X, X.length, false⟩ =
    (.ok (), ⟨X ++ bs.take (roomFor room bs.length), p, tooMany room bs.length⟩) ∧ (tooMany room bs.length = false → p = X.length + bs.length) := by
  cases room with
  | none =>
    refine ⟨X.length + bs.length, ?_, fun _ => rfl⟩
    show (Except.ok (), (⟨overwrite X X.length bs, X.length + bs.length, false⟩ : File)) = _
    rw [overwrite_end]
    show _ = (Except.ok (), (⟨X ++ bs.take bs.length, _, false⟩ : File))
    rw [List.take_length]
  | some r =>
    by_cases h : bs.length ≤ r
    · refine ⟨X.length + bs.length, ?_, fun _ => rfl⟩
      show (Except.ok (), (if bs.length ≤ r then _ else _ : File)) = (Except.ok (), (⟨X ++ bs.take (min r bs.length), _, decide (r < bs.length)⟩ : File))
      rw [if_pos h, overwrite_end, List.take_of_length_le (by omega), decide_eq_false (by omega)]
    · refine ⟨X.length + r, ?_, fun hf => ?_⟩
      · show (Except.ok (), (if bs.length ≤ r then _ else _ : File)) = (Except.ok (), (⟨X ++ bs.take (min r bs.length), _, decide (r < bs.length)⟩ : File))
        rw [if_neg h, overwrite_end, decide_eq_true (by omega), Nat.min_eq_left (by omega)]
      · exact absurd (of_decide_eq_false (p := r < bs.length) hf) (by omega)

/-- A failed stream stays as it is. -/
theorem putRoom_bad (room : Option Nat) (bs X : List Byte) (p : Nat) : putRoom room bs ⟨X, p, true⟩ = (.ok (), ⟨X, p, true⟩) := rfl

theorem relocateF_bad (es : List Ent) : ∀ (room : Option Nat) (b p : Nat) (X rest : List Byte) (prev base : Nat) (d st : File) (c s0 bs : Nat) (ca : Cache),
    relocateF prev base room es.length (idxBytes b es ++ rest) ⟨⟨X, p, true⟩, d, st, c, s0, ca, bs⟩ = (.ok (), ⟨⟨X, p, true⟩, d, st, c, s0, ca, bs⟩) := by
  induction es with
  | nil => intros; rfl
  | cons e es ih =>
    intro room b p X rest prev base d st c s0 bs ca
    rw [List.length_cons, relocateF, idxBytes_cons, if_neg (by simp), List.append_assoc, List.drop_left' (by simp)]
    simp only []
    rw [bIdx (putRoom_bad _ _ _ _), ih]

theorem relocateF_end (es : List Ent) : ∀ (room : Option Nat) (b : Nat) (X rest : List Byte) (prev base : Nat) (d st : File) (c s0 bs : Nat) (ca : Cache),
    base ≤ b → b + dataSize es < 2 ^ 62 → prev < 2 ^ 62 →
    ∃ p, relocateF prev base room es.length (idxBytes b es ++ rest) ⟨⟨X, X.length, false⟩, d, st, c, s0, ca, bs⟩ =
      (.ok (), ⟨⟨X ++ (idxBytes (b + prev - base) es).take (roomFor room (8 * es.length)), p, tooMany room (8 * es.length)⟩, d, st, c, s0, ca, bs⟩) ∧
      (tooMany room (8 * es.length) = false → p = X.length + 8 * es.length) := by
  induction es with
  | nil =>
    intro room b X rest prev base d st c s0 bs ca h1 h2 h3
    refine ⟨X.length, ?_, fun _ => rfl⟩
    have : tooMany room (8 * ([] : List Ent).length) = false := by cases room <;> rfl
    rw [this]
    simp [relocateF]
  | cons e es ih =>
    intro room b X rest prev base d st c s0 bs ca h1 h2 h3
    have hsz : dataSize (e :: es) = 9 + e.data.length + dataSize es := rfl
    rw [List.length_cons, relocateF, idxBytes_cons, if_neg (by simp), List.append_assoc, List.take_left' (by simp),
      List.drop_left' (by simp), dec8_pos _ (by omega)]
    have hv : BitVec.ofNat 64 (b + prev + 2 ^ 64 - base) = BitVec.ofNat 64 (b + prev - base) := by
      apply BitVec.eq_of_toNat_eq
      simp only [BitVec.toNat_ofNat]; omega
    rw [hv]
    obtain ⟨p, hp, hp2⟩ := putRoom_end room X (le8 (BitVec.ofNat 64 (b + prev - base)))
    rw [le8_length] at hp hp2
    simp only []
    rw [bIdx hp]
    have hidx : idxBytes (b + prev - base) (e :: es) = le8 (BitVec.ofNat 64 (b + prev - base)) ++ idxBytes (b + prev - base + (9 + e.data.length)) es :=
      idxBytes_cons ..
    cases ht : tooMany room 8 with
    | true =>
      obtain ⟨r, rfl, hr⟩ : ∃ r, room = some r ∧ r < 8 := by
        cases room with
        | none => cases ht
        | some r => exact ⟨r, rfl, of_decide_eq_true ht⟩
      have h8 : tooMany (some r) (8 * (es.length + 1)) = true := decide_eq_true (by omega)
      refine ⟨p, ?_, fun h => absurd (h8.symm.trans h) (by simp)⟩
      rw [relocateF_bad, h8, hidx]
      show _ = (_, (⟨⟨X ++ List.take (min r (8 * (es.length + 1))) _, _, _⟩, _, _, _, _, _, _⟩ : Store))
      rw [Nat.min_eq_left (by omega), List.take_append_of_le_length (by rw [le8_length]; omega)]
      show (_, (⟨⟨X ++ List.take (min r 8) _, _, _⟩, _, _, _, _, _, _⟩ : Store)) = _
      rw [Nat.min_eq_left (by omega)]
    | false =>
      have hroom : roomFor room 8 = 8 ∧ roomFor (room.map (· - 8)) (8 * es.length) + 8 = roomFor room (8 * (es.length + 1)) ∧
          tooMany (room.map (· - 8)) (8 * es.length) = tooMany room (8 * (es.length + 1)) := by
        cases room with
        | none => exact ⟨rfl, rfl, rfl⟩
        | some r =>
          have := of_decide_eq_false (p := r < 8) ht
          refine ⟨?_, ?_, ?_⟩
          · show min r 8 = 8; omega
          · show min (r - 8) (8 * es.length) + 8 = min r (8 * (es.length + 1)); omega
          · show decide (r - 8 < 8 * es.length) = decide (r < 8 * (es.length + 1))
            by_cases h : r - 8 < 8 * es.length
            · rw [decide_eq_true h, decide_eq_true (by omega)]
            · rw [decide_eq_false h, decide_eq_false (by omega)]
      rw [hp2 ht, hroom.1, List.take_of_length_le (by rw [le8_length]; omega),
        show X.length + 8 = (X ++ le8 (BitVec.ofNat 64 (b + prev - base))).length by simp]
      obtain ⟨p', h4, h5⟩ := ih (room.map (· - 8)) (b + (9 + e.data.length)) (X ++ le8 (BitVec.ofNat 64 (b + prev - base))) rest prev base d st c s0 bs ca
        (by omega) (by omega) h3
      refine ⟨p', ?_, fun h => ?_⟩
      · rw [h4, hroom.2.2, hidx, ← hroom.2.1, List.take_append, le8_length, Nat.add_sub_cancel,
          List.take_of_length_le (l := le8 _) (by rw [le8_length]; omega),
          show b + (9 + e.data.length) + prev - base = b + prev - base + (9 + e.data.length) by omega, List.append_assoc]
      · rw [h5 (by rw [hroom.2.2]; exact h)]; simp; omega

/-- Writing a pack at the end of both files. -/
theorem packWriteF_end {es : List Ent} {base : Nat} {X P : List Byte} {st : File} {c s0 bs : Nat} {ca : Cache} (w : FullP)
    (hne : es ≠ []) (hb : base + dataSize es < 2 ^ 62) (hP : P.length < 2 ^ 62) :
    ∃ p q, packWriteF w (8 * es.length) (dataSize es) (idxBytes base es ++ datBytes es)
      ⟨⟨X, X.length, false⟩, ⟨P, P.length, false⟩, st, c, s0, ca, bs⟩ =
      (.ok (), ⟨⟨X ++ (idxBytes P.length es).take (roomFor w.idx (8 * es.length)), p, tooMany w.idx (8 * es.length)⟩,
        ⟨P ++ (datBytes es).take (roomFor w.dat (dataSize es)), q, tooMany w.dat (dataSize es)⟩, st, c, s0, ca, bs⟩) ∧
      (tooMany w.idx (8 * es.length) = false → p = X.length + 8 * es.length) ∧ (tooMany w.dat (dataSize es) = false → q = P.length + dataSize es) := by
  have hpos := List.length_pos_iff.2 hne
  have h8 : (idxBytes base es ++ datBytes es).take 8 = le8 (BitVec.ofNat 64 base) := by
    obtain ⟨e, es', rfl⟩ := List.exists_cons_of_ne_nil hne
    rw [idxBytes_cons, List.append_assoc, List.take_left' (by simp)]
  obtain ⟨q, hq, hq2⟩ := putRoom_end w.dat P (datBytes es)
  rw [datBytes_length] at hq hq2
  have hlast : ∀ (f : File), (onDat (putRoom w.dat ((List.drop (8 * es.length) (idxBytes base es ++ datBytes es)).take (dataSize es))))
      ⟨f, ⟨P, P.length, false⟩, st, c, s0, ca, bs⟩ = (.ok (), ⟨f, ⟨P ++ (datBytes es).take (roomFor w.dat (dataSize es)), q, tooMany w.dat (dataSize es)⟩, st, c, s0, ca, bs⟩) := by
    intro f
    rw [List.drop_left' (by simp), List.take_of_length_le (by simp), run_onDat hq]
  rw [packWriteF, bDat tl, if_neg (by simp; omega), h8, dec8_pos _ (by omega)]
  by_cases hp : P.length = base
  · obtain ⟨p, hp1, hp2⟩ := putRoom_end w.idx X (idxBytes base es)
    rw [idxBytes_length] at hp1 hp2
    refine ⟨p, q, ?_, hp2, hq2⟩
    rw [if_pos hp, if_neg (by simp), List.take_left' (by simp)]
    try simp only []
    rw [bIdx hp1, if_neg (by simp)]
    try simp only []
    rw [hlast, hp]
  · obtain ⟨p, hp1, hp2⟩ := relocateF_end es w.idx base X (datBytes es) P.length base ⟨P, P.length, false⟩ st c s0 bs ca (Nat.le_refl _) hb hP
    refine ⟨p, q, ?_, hp2, hq2⟩
    rw [if_neg hp, show (8 * es.length + 7) / 8 = es.length by omega]
    try simp only []
    rw [run_bind_ok hp1, if_neg (by simp)]
    try simp only []
    rw [hlast]
    simp only [show base + P.length - base = P.length by omega]

/-- At the end of the log nothing is cut off. -/
theorem packTruncF_end {X P : List Byte} {p q c s0 bs : Nat} {ib db : Bool} {st : File} {ca : Cache} (h : ib = false → p = X.length) :
    ∃ p' q', packTruncF ⟨⟨X, p, ib⟩, ⟨P, q, db⟩, st, c, s0, ca, bs⟩ = (.ok (), ⟨⟨X, p', ib⟩, ⟨P, q', db⟩, st, c, s0, ca, bs⟩) ∧
      (ib = false → p' = X.length) ∧ (db = false → q' = P.length) := by
  cases ib with
  | true =>
    have hs : ∀ (Y : List Byte) (r : Nat), seekEnd (⟨Y, r, true⟩ : File) = (.ok (), ⟨Y, r, true⟩) := fun _ _ => rfl
    have ht : ∀ (Y : List Byte) (r : Nat), tell (⟨Y, r, true⟩ : File) = (.ok (2 ^ 64 - 1), ⟨Y, r, true⟩) := fun _ _ => rfl
    unfold packTruncF
    cases db with
    | true =>
      rw [bIdx (ht _ _), bDat (ht _ _), bIdx (hs _ _), bDat (hs _ _), bIdx (ht _ _), if_neg (by omega)]
      exact ⟨_, _, rfl, fun h => (by cases h), fun h => (by cases h)⟩
    | false =>
      rw [bIdx (ht _ _), bDat tl, bIdx (hs _ _), bDat se, bIdx (ht _ _), if_neg (by omega)]
      exact ⟨_, _, rfl, fun h => (by cases h), fun _ => rfl⟩
  | false =>
    have hX := h rfl
    subst hX
    unfold packTruncF
    have : ∀ (k : Nat → M Store Unit) (t : Store), (onDat tell >>= k) t = k (if t.dat.bad then 2 ^ 64 - 1 else t.dat.pos) t := fun _ _ => rfl
    rw [bIdx tl, this, bIdx se]
    cases db with
    | true =>
      have hs : seekEnd (⟨P, q, true⟩ : File) = (.ok (), ⟨P, q, true⟩) := rfl
      rw [bDat hs, bIdx tl, if_neg (by omega)]
      exact ⟨_, _, rfl, fun _ => rfl, fun h => (by cases h)⟩
    | false =>
      rw [bDat se, bIdx tl, if_neg (by omega)]
      exact ⟨_, _, rfl, fun _ => rfl, fun _ => rfl⟩

theorem fails_iff (w : FullP) (es : List Ent) : w.Fails es ↔ tooMany w.dat (dataSize es) = true ∨ tooMany w.idx (8 * es.length) = true := by
  have h : ∀ (room : Option Nat) (n : Nat), (∃ r, room = some r ∧ r < n) ↔ tooMany room n = true := by
    intro room n
    cases room with
    | none => exact ⟨fun ⟨_, h, _⟩ => (by cases h), fun h => (by cases h)⟩
    | some r => exact ⟨fun ⟨_, h, hr⟩ => (by cases h; exact decide_eq_true hr), fun h => ⟨r, rfl, of_decide_eq_true h⟩⟩
  rw [FullP.Fails, h, h, Or.comm]

/-- The end of `apply_pack`. -/
def applyEnd (n : Nat) : M Store Unit := do
  checkIO
  modify fun t => { t with count := n }
  modify fun t => { t with cache := t.cache.reset (cacheStart t.count t.start t.bufSize) }
  fillBuffer

/-- `apply_pack` at the end of the log up to the check of the streams. -/
theorem applyPackF_end {l : Log} (hfit : l.Fits) (f : Nat) {ip dp sp bs : Nat} (w : FullP) (p : List Byte) (es : List Ent) (hp : PackOf p es) (hne : es ≠ [])
    (hf : Log.Fits ⟨l.start, l.ents ++ es⟩) :
    ∃ ip' dp', applyPackF w l.next p (repStore l l.ents ip dp sp f bs) = applyEnd (l.ents.length + es.length)
      ⟨⟨idxBytes 0 l.ents ++ (idxBytes (dataSize l.ents) es).take (roomFor w.idx (8 * es.length)), ip', tooMany w.idx (8 * es.length)⟩,
        ⟨datBytes l.ents ++ (datBytes es).take (roomFor w.dat (dataSize es)), dp', tooMany w.dat (dataSize es)⟩,
        ⟨le8 (BitVec.ofNat 64 l.start), sp, false⟩, l.ents.length, l.start, ⟨f, l.ents.drop (f - l.start), bs⟩, bs⟩ ∧
      (tooMany w.idx (8 * es.length) = false → tooMany w.dat (dataSize es) = false →
        ip' = 8 * l.ents.length + 8 * es.length ∧ dp' = dataSize l.ents + dataSize es) := by
  obtain ⟨hf1, hf2, hf3⟩ := hfit
  have hnext : l.next = l.start + l.ents.length := rfl
  have hes : dataSize l.ents + dataSize es < 2 ^ 31 := by
    have := hf.1
    simpa only [dataSize_append] using this
  rcases hp with ⟨h0, -⟩ | ⟨-, hsz31, base, hbase, rfl⟩
  · exact absurd h0 hne
  have hcE := count_le_dataSize es
  obtain ⟨hn1, hn2⟩ := toNat_ofNat32 (n := 8 * es.length) (by omega)
  obtain ⟨hm1, hm2⟩ := toNat_ofNat32 (n := dataSize es) (by omega)
  have e1 : List.take 4 (le4 (BitVec.ofNat 32 (8 * es.length)) ++ (le4 (BitVec.ofNat 32 (dataSize es)) ++ (idxBytes base es ++ datBytes es))) = le4 (BitVec.ofNat 32 (8 * es.length)) := List.take_left' rfl
  have e2 : List.take 4 (List.drop 4 (le4 (BitVec.ofNat 32 (8 * es.length)) ++ (le4 (BitVec.ofNat 32 (dataSize es)) ++ (idxBytes base es ++ datBytes es)))) = le4 (BitVec.ofNat 32 (dataSize es)) := by
    rw [List.drop_left' (le4_length _), List.take_left' (le4_length _)]
  have e3 : List.drop 8 (le4 (BitVec.ofNat 32 (8 * es.length)) ++ (le4 (BitVec.ofNat 32 (dataSize es)) ++ (idxBytes base es ++ datBytes es))) = idxBytes base es ++ datBytes es := by
    rw [← List.append_assoc, List.drop_left' (by simp)]
  have hpos := packPos_ok (A := l.ents) (B := []) (ip := ip) (dp := dp) (s0 := l.start) (st := ⟨le8 (BitVec.ofNat 64 l.start), sp, false⟩)
    (ca := ⟨f, l.ents.drop (f - l.start), bs⟩) (bs := bs) (by simp; omega)
  rw [List.append_nil] at hpos
  obtain ⟨q1, q2, hw, hq1, hq2⟩ := packWriteF_end (X := idxBytes 0 l.ents) (P := datBytes l.ents) (st := ⟨le8 (BitVec.ofNat 64 l.start), sp, false⟩)
    (c := l.ents.length) (s0 := l.start) (bs := bs) (ca := ⟨f, l.ents.drop (f - l.start), bs⟩) w hne hbase (by simp; omega)
  have hroom : ∀ (room : Option Nat) (n : Nat), tooMany room n = false → roomFor room n = n := by
    intro room n h
    cases room with
    | none => rfl
    | some r => have := of_decide_eq_false (p := r < n) h; show min r n = n; omega
  obtain ⟨q3, q4, ht, hq3, hq4⟩ := packTruncF_end (p := q1) (q := q2) (ib := tooMany w.idx (8 * es.length)) (db := tooMany w.dat (dataSize es))
    (X := idxBytes 0 l.ents ++ (idxBytes (datBytes l.ents).length es).take (roomFor w.idx (8 * es.length)))
    (P := datBytes l.ents ++ (datBytes es).take (roomFor w.dat (dataSize es))) (st := ⟨le8 (BitVec.ofNat 64 l.start), sp, false⟩)
    (c := l.ents.length) (s0 := l.start) (bs := bs) (ca := ⟨f, l.ents.drop (f - l.start), bs⟩) (by
      intro h
      rw [hq1 h, hroom _ _ h, List.take_of_length_le (by simp)]
      simp)
  refine ⟨q3, q4, ?_, fun h1 h2 => ⟨?_, ?_⟩⟩
  · change applyPackF w l.next (le4 (BitVec.ofNat 32 (8 * es.length)) ++ (le4 (BitVec.ofNat 32 (dataSize es)) ++ (idxBytes base es ++ datBytes es))) _ = _
    rw [applyPackF, bget, if_neg (by simp), if_neg (by simp; omega), e1, e2, e3, dec4_le4, dec4_le4, hn1, hm1,
      if_neg (by simp only [hn2, hm2, or_self, not_false_eq_true])]
    simp only [repStore]
    rw [subU64_eq (by omega) (by omega), show l.next - l.start = l.ents.length by omega, run_bind_ok hpos, run_bind_ok hw, run_bind_ok ht,
      show 8 * es.length / 8 = es.length by omega, datBytes_length]
    rfl
  · rw [hq3 h1, hroom _ _ h1, List.take_of_length_le (by simp)]; simp
  · rw [hq4 h2, hroom _ _ h2, List.take_of_length_le (by simp)]; simp

/-! ## C118 -/

/-- Writing to a stream. -/
theorem putRoom_run (room : Option Nat) (bs : List Byte) (f : File) : ∃ f', putRoom room bs f = (.ok (), f') ∧
    f'.bad = (f.bad || tooMany room bs.length) := by
  refine ⟨_, rfl, ?_⟩
  obtain ⟨b, p, bad⟩ := f
  cases bad with
  | true => rfl
  | false =>
    cases room with
    | none => rfl
    | some r =>
      show File.bad (if bs.length ≤ r then _ else _) = (false || decide (r < bs.length))
      by_cases h : bs.length ≤ r
      · rw [if_pos h, decide_eq_false (by omega)]; rfl
      · rw [if_neg h, decide_eq_true (by omega)]; rfl

theorem tooMany_step (room : Option Nat) (n : Nat) : (tooMany room 8 || tooMany (room.map (· - 8)) (8 * n)) = tooMany room (8 * (n + 1)) := by
  cases room with
  | none => rfl
  | some r =>
    show (decide (r < 8) || decide (r - 8 < 8 * n)) = decide (r < 8 * (n + 1))
    rw [← Bool.decide_or]
    exact decide_eq_decide.mpr (by omega)

theorem relocateF_run (prev first : Nat) : ∀ (n : Nat) (room : Option Nat) (bs : List Byte) (s : Store), 8 * n ≤ bs.length →
    ∃ f, relocateF prev first room n bs s = (.ok (), { s with idx := f }) ∧ f.bad = (s.idx.bad || tooMany room (8 * n))
  | 0, room, bs, s, _ => ⟨s.idx, rfl, by cases room <;> simp [tooMany]⟩
  | n + 1, room, bs, s, h => by
    obtain ⟨f, h1, h2⟩ := putRoom_run room (le8 (BitVec.ofNat 64 ((dec8 (bs.take 8)).toNat + prev + 2 ^ 64 - first))) s.idx
    obtain ⟨f', h3, h4⟩ := relocateF_run prev first n (room.map (· - 8)) (bs.drop 8) { s with idx := f } (by rw [List.length_drop]; omega)
    refine ⟨f', ?_, ?_⟩
    · rw [relocateF, if_neg (by omega)]
      simp only []
      have : onIdx (putRoom room (le8 (BitVec.ofNat 64 ((dec8 (bs.take 8)).toNat + prev + 2 ^ 64 - first)))) s = (.ok (), { s with idx := f }) := by
        rw [onIdx, h1]
      rw [run_bind_ok this, h3]
    · rw [h4, ← tooMany_step]
      show (f.bad || _) = _
      rw [h2, le8_length, Bool.or_assoc]

theorem packWriteF_run (w : FullP) {es : List Ent} (hne : es ≠ []) (base : Nat) (s : Store) :
    ∃ fi fd, packWriteF w (8 * es.length) (dataSize es) (idxBytes base es ++ datBytes es) s = (.ok (), { s with idx := fi, dat := fd }) ∧
      fi.bad = (s.idx.bad || tooMany w.idx (8 * es.length)) ∧ fd.bad = (s.dat.bad || tooMany w.dat (dataSize es)) := by
  have hpos := List.length_pos_iff.2 hne
  obtain ⟨fd, hd, hd2⟩ := putRoom_run w.dat (datBytes es) s.dat
  rw [datBytes_length] at hd2
  have hlast : ∀ (f : File), onDat (putRoom w.dat ((List.drop (8 * es.length) (idxBytes base es ++ datBytes es)).take (dataSize es))) { s with idx := f } =
      (.ok (), { s with idx := f, dat := fd }) := by
    intro f
    rw [List.drop_left' (by simp), List.take_of_length_le (by simp), onDat]
    show ((putRoom w.dat (datBytes es) s.dat).1, _) = _
    rw [hd]
  have htell : ∀ (k : Nat → M Store Unit), (onDat tell >>= k) s = k (if s.dat.bad then 2 ^ 64 - 1 else s.dat.pos) s := fun _ => rfl
  rw [packWriteF, htell, if_neg (by simp; omega)]
  simp only []
  by_cases hp : (if s.dat.bad then 2 ^ 64 - 1 else s.dat.pos) = (dec8 ((idxBytes base es ++ datBytes es).take 8)).toNat
  · obtain ⟨fi, hi, hi2⟩ := putRoom_run w.idx (idxBytes base es) s.idx
    rw [idxBytes_length] at hi2
    refine ⟨fi, fd, ?_, hi2, hd2⟩
    rw [if_pos hp, if_neg (by simp), List.take_left' (by simp)]
    try simp only []
    have : onIdx (putRoom w.idx (idxBytes base es)) s = (.ok (), { s with idx := fi }) := by rw [onIdx, hi]
    rw [run_bind_ok this, if_neg (by simp)]
    exact hlast fi
  · obtain ⟨fi, hi, hi2⟩ := relocateF_run (if s.dat.bad then 2 ^ 64 - 1 else s.dat.pos) (dec8 ((idxBytes base es ++ datBytes es).take 8)).toNat es.length w.idx
      (idxBytes base es ++ datBytes es) s (by simp)
    refine ⟨fi, fd, ?_, hi2, hd2⟩
    rw [if_neg hp, show (8 * es.length + 7) / 8 = es.length by omega]
    rw [run_bind_ok hi, if_neg (by simp)]
    exact hlast fi

/-- A failed stream is noticed: by `truncate`, or at the end. -/
theorem packTruncF_run {s : Store} (h : s.dat.bad = true ∨ s.idx.bad = true) (k : Unit → M Store Unit) :
    ∃ fi fd, (packTruncF >>= fun _ => checkIO >>= k) s = (.error .thrown, { s with idx := fi, dat := fd }) ∧ (fd.bad = true ∨ fi.bad = true) := by
  have hthrow : ∀ (t : Store), t.dat.bad = true ∨ t.idx.bad = true → (checkIO >>= k) t = (.error .thrown, t) := by
    intro t ht
    refine run_bind_err ?_
    show (if t.dat.bad = true ∨ t.idx.bad = true then (throw .thrown : M Store Unit) else pure ()) t = _
    rw [if_pos ht]; rfl
  have hs : ∀ (Y : List Byte) (r : Nat), seekEnd (⟨Y, r, true⟩ : File) = (.ok (), ⟨Y, r, true⟩) := fun _ _ => rfl
  have ht : ∀ (Y : List Byte) (r : Nat), tell (⟨Y, r, true⟩ : File) = (.ok (2 ^ 64 - 1), ⟨Y, r, true⟩) := fun _ _ => rfl
  obtain ⟨⟨X, p, ib⟩, ⟨P, q, db⟩, st, c, s0, ca, bs⟩ := s
  cases ib with
  | true =>
    have : ∃ q', packTruncF ⟨⟨X, p, true⟩, ⟨P, q, db⟩, st, c, s0, ca, bs⟩ = (.ok (), ⟨⟨X, p, true⟩, ⟨P, q', db⟩, st, c, s0, ca, bs⟩) := by
      unfold packTruncF
      cases db with
      | true =>
        rw [bIdx (ht _ _), bDat (ht _ _), bIdx (hs _ _), bDat (hs _ _), bIdx (ht _ _), if_neg (by omega)]
        exact ⟨_, rfl⟩
      | false =>
        rw [bIdx (ht _ _), bDat tl, bIdx (hs _ _), bDat se, bIdx (ht _ _), if_neg (by omega)]
        exact ⟨_, rfl⟩
    obtain ⟨q', hq⟩ := this
    exact ⟨_, _, by rw [run_bind_ok hq, hthrow _ (.inr rfl)], .inr rfl⟩
  | false =>
    obtain rfl : db = true := h.resolve_right (by simp)
    by_cases hc : p < X.length
    · have hcl : ∀ (Y : List Byte) (r : Nat) (b : Bool), closeW (⟨Y, r, b⟩ : File) = (.ok (), ⟨Y, r, true⟩) := fun _ _ _ => rfl
      have htr : ∀ (f : File), truncW false (2 ^ 64 - 1) f = (.error .thrown, f) := fun f => by
        rw [truncW, if_pos (.inr (by decide))]
      have : ∃ f : File, packTruncF ⟨⟨X, p, false⟩, ⟨P, q, true⟩, st, c, s0, ca, bs⟩ = (.error .thrown, ⟨f, ⟨P, q, true⟩, st, c, s0, ca, bs⟩) := by
        unfold packTruncF
        rw [bIdx tl, bDat (ht _ _), bIdx se, bDat (hs _ _), bIdx tl, if_pos hc, bIdx (hcl _ _ _), bDat (hcl _ _ _)]
        by_cases h63 : 2 ^ 63 ≤ p
        · have : ∀ (f : File), truncW false p f = (.error .thrown, f) := fun f => by rw [truncW, if_pos (.inr h63)]
          rw [eIdx (this _)]
          exact ⟨_, rfl⟩
        · have : ∀ (f : File), truncW false p f = (.ok (), { f with bytes := f.bytes.take p ++ List.replicate (p - f.bytes.length) 0 }) := fun f => by
            rw [truncW, if_neg (by simp; omega)]
          rw [bIdx (this _), eDat (htr _)]
          exact ⟨_, rfl⟩
      obtain ⟨f, hf⟩ := this
      exact ⟨_, _, by rw [run_bind_err hf], .inl rfl⟩
    · have : packTruncF ⟨⟨X, p, false⟩, ⟨P, q, true⟩, st, c, s0, ca, bs⟩ = (.ok (), ⟨⟨X, X.length, false⟩, ⟨P, q, true⟩, st, c, s0, ca, bs⟩) := by
        unfold packTruncF
        rw [bIdx tl, bDat (ht _ _), bIdx se, bDat (hs _ _), bIdx tl, if_neg hc]
        rfl
      exact ⟨_, _, by rw [run_bind_ok this, hthrow _ (.inl rfl)], .inl rfl⟩

/-- C118, `_partial`: if a pack does not fit on the disk, the call ends by an exception, the store goes on showing the log as it was, as far as it
is in the cache, and takes no further entry. This holds for packs behind the log and for packs that replace entries. Missing: what did fit
stays in the files (`failed_pack_not_openable`, `failed_pack_extends`). -/
theorem failed_pack_unseen_partial {s : Store} {l : Log} (h : Reach s l) (i : Nat) (hi : l.start ≤ i) (hn : i ≤ l.next) (p : List Byte) (es : List Ent)
    (hp : PackOf p es) (hne : es ≠ []) {w : FullP} (hw : w.Fails es) :
    ∃ s', applyPackF w i p s = (.error .thrown, s') ∧ ShowsFrom s' l s.cache.first ∧ ∀ e', ∃ f, (append e' s').1 = .error f := by
  have hr := h.rep
  have hm := hr.mem
  have hfit := hr.fits
  obtain ⟨ip, dp, sp, f, bs, rfl, -, -, -, -⟩ := hr.parts
  obtain ⟨hf1, hf2, hf3⟩ := hfit
  have hnext : l.next = l.start + l.ents.length := rfl
  rcases hp with ⟨h0, -⟩ | ⟨-, hsz31, base, hbase, rfl⟩
  · exact absurd h0 hne
  have hcE := count_le_dataSize es
  obtain ⟨hn1, hn2⟩ := toNat_ofNat32 (n := 8 * es.length) (by omega)
  obtain ⟨hm1, hm2⟩ := toNat_ofNat32 (n := dataSize es) (by omega)
  have e1 : List.take 4 (le4 (BitVec.ofNat 32 (8 * es.length)) ++ (le4 (BitVec.ofNat 32 (dataSize es)) ++ (idxBytes base es ++ datBytes es))) = le4 (BitVec.ofNat 32 (8 * es.length)) := List.take_left' rfl
  have e2 : List.take 4 (List.drop 4 (le4 (BitVec.ofNat 32 (8 * es.length)) ++ (le4 (BitVec.ofNat 32 (dataSize es)) ++ (idxBytes base es ++ datBytes es)))) = le4 (BitVec.ofNat 32 (dataSize es)) := by
    rw [List.drop_left' (le4_length _), List.take_left' (le4_length _)]
  have e3 : List.drop 8 (le4 (BitVec.ofNat 32 (8 * es.length)) ++ (le4 (BitVec.ofNat 32 (dataSize es)) ++ (idxBytes base es ++ datBytes es))) = idxBytes base es ++ datBytes es := by
    rw [← List.append_assoc, List.drop_left' (by simp)]
  have hAl : (l.ents.take (i - l.start)).length = i - l.start := by rw [List.length_take]; omega
  have hsz : dataSize l.ents = dataSize (l.ents.take (i - l.start)) + dataSize (l.ents.drop (i - l.start)) := by
    rw [← dataSize_append, List.take_append_drop]
  have hpos := packPos_ok (A := l.ents.take (i - l.start)) (B := l.ents.drop (i - l.start)) (ip := ip) (dp := dp) (s0 := l.start)
    (st := ⟨le8 (BitVec.ofNat 64 l.start), sp, false⟩) (ca := ⟨f, l.ents.drop (f - l.start), bs⟩) (bs := bs) (by omega)
  rw [List.take_append_drop, hAl] at hpos
  change ∃ s', applyPackF w i (le4 (BitVec.ofNat 32 (8 * es.length)) ++ (le4 (BitVec.ofNat 32 (dataSize es)) ++ (idxBytes base es ++ datBytes es))) _ = _ ∧ _
  rw [applyPackF, bget, if_neg (by simp), if_neg (by simp; omega), e1, e2, e3, dec4_le4, dec4_le4, hn1, hm1,
    if_neg (by simp only [hn2, hm2, or_self, not_false_eq_true])]
  simp only [repStore]
  rw [subU64_eq (by omega) (by omega), run_bind_ok hpos]
  obtain ⟨fi, fd, hwr, hbi, hbd⟩ := packWriteF_run w hne base ⟨⟨idxBytes 0 l.ents, (idxBytes 0 (l.ents.take (i - l.start))).length, false⟩,
    ⟨datBytes l.ents, (datBytes (l.ents.take (i - l.start))).length, false⟩, ⟨le8 (BitVec.ofNat 64 l.start), sp, false⟩, l.ents.length, l.start,
    ⟨f, l.ents.drop (f - l.start), bs⟩, bs⟩
  rw [run_bind_ok hwr]
  rw [fails_iff] at hw
  obtain ⟨fi', fd', hend, hbad⟩ := packTruncF_run (s := ⟨fi, fd, ⟨le8 (BitVec.ofNat 64 l.start), sp, false⟩, l.ents.length, l.start,
    ⟨f, l.ents.drop (f - l.start), bs⟩, bs⟩) (hw.imp (fun h => by rw [hbd, h]; rfl) fun h => by rw [hbi, h]; rfl)
    (fun _ => do
      modify fun t => { t with count := i - l.start + 8 * es.length / 8 }
      modify fun t => { t with cache := t.cache.reset (cacheStart t.count t.start t.bufSize) }
      fillBuffer)
  rw [hend]
  exact ⟨_, rfl, Mem.shows ⟨rfl, rfl, hm.first, rfl, hm.nonempty⟩, fun e' => append_stuck e' hbad⟩

/-- What is in the files after a pack behind the log did not fit. -/
theorem failed_pack_files {s : Store} {l : Log} (h : Reach s l) (p : List Byte) (es : List Ent) (hp : PackOf p es) (hne : es ≠ [])
    (hf : Log.Fits ⟨l.start, l.ents ++ es⟩) {w : FullP} (hw : w.Fails es) :
    ∃ s', applyPackF w l.next p s = (.error .thrown, s') ∧
      s'.disk = packPart s.disk es (roomFor w.idx (8 * es.length)) (roomFor w.dat (dataSize es)) := by
  have hr := h.rep
  have hfit := hr.fits
  have hdisk := hr.disk
  obtain ⟨ip, dp, sp, f, bs, rfl, -, -, -, -⟩ := hr.parts
  obtain ⟨ip', dp', he, -⟩ := applyPackF_end hfit f (ip := ip) (dp := dp) (sp := sp) (bs := bs) w p es hp hne hf
  rw [he, applyEnd]
  rw [fails_iff] at hw
  have hthrow : ∀ (t : Store) (k : Unit → M Store Unit), t.dat.bad = true ∨ t.idx.bad = true → (checkIO >>= k) t = (.error .thrown, t) := by
    intro t k ht
    refine run_bind_err ?_
    show (if t.dat.bad = true ∨ t.idx.bad = true then (throw .thrown : M Store Unit) else pure ()) t = _
    rw [if_pos ht]; rfl
  rw [hthrow _ _ hw]
  refine ⟨_, rfl, ?_⟩
  rw [hdisk, packPart, datBytes_length]
  rfl

/-- If everything fits, this is `apply_pack` of `Verif/LogStore/Model.lean`. -/
theorem applyPackF_works {s : Store} {l : Log} (h : Reach s l) (p : List Byte) (es : List Ent) (hp : PackOf p es) (hne : es ≠ [])
    (hf : Log.Fits ⟨l.start, l.ents ++ es⟩) {w : FullP} (hw : ¬ w.Fails es) :
    applyPackF w l.next p s = applyPack l.next p s := by
  have hr := h.rep
  have hfit := hr.fits
  obtain ⟨ip, dp, sp, f, bs, rfl, -, -, -, -⟩ := hr.parts
  obtain ⟨ip', dp', he, hpos'⟩ := applyPackF_end hfit f (ip := ip) (dp := dp) (sp := sp) (bs := bs) w p es hp hne hf
  rw [fails_iff, not_or, Bool.not_eq_true, Bool.not_eq_true] at hw
  have hroom : ∀ (room : Option Nat) (n : Nat), tooMany room n = false → roomFor room n = n := by
    intro room n h
    cases room with
    | none => rfl
    | some r => have := of_decide_eq_false (p := r < n) h; show min r n = n; omega
  obtain ⟨rfl, rfl⟩ := hpos' hw.2 hw.1
  rw [he, hw.1, hw.2, hroom _ _ hw.1, hroom _ _ hw.2, List.take_of_length_le (by simp), List.take_of_length_le (by simp)]
  obtain ⟨hf1, hf2, hf3⟩ := hfit
  have hnext : l.next = l.start + l.ents.length := rfl
  have hes : dataSize l.ents + dataSize es < 2 ^ 31 := by
    have := hf.1
    simpa only [dataSize_append] using this
  rcases hp with ⟨h0, -⟩ | ⟨-, hsz31, base, hbase, rfl⟩
  · exact absurd h0 hne
  have hcE := count_le_dataSize es
  obtain ⟨hn1, hn2⟩ := toNat_ofNat32 (n := 8 * es.length) (by omega)
  obtain ⟨hm1, hm2⟩ := toNat_ofNat32 (n := dataSize es) (by omega)
  have e1 : List.take 4 (le4 (BitVec.ofNat 32 (8 * es.length)) ++ (le4 (BitVec.ofNat 32 (dataSize es)) ++ (idxBytes base es ++ datBytes es))) = le4 (BitVec.ofNat 32 (8 * es.length)) := List.take_left' rfl
  have e2 : List.take 4 (List.drop 4 (le4 (BitVec.ofNat 32 (8 * es.length)) ++ (le4 (BitVec.ofNat 32 (dataSize es)) ++ (idxBytes base es ++ datBytes es)))) = le4 (BitVec.ofNat 32 (dataSize es)) := by
    rw [List.drop_left' (le4_length _), List.take_left' (le4_length _)]
  have e3 : List.drop 8 (le4 (BitVec.ofNat 32 (8 * es.length)) ++ (le4 (BitVec.ofNat 32 (dataSize es)) ++ (idxBytes base es ++ datBytes es))) = idxBytes base es ++ datBytes es := by
    rw [← List.append_assoc, List.drop_left' (by simp)]
  have hpos := packPos_ok (A := l.ents) (B := []) (ip := ip) (dp := dp) (s0 := l.start) (st := ⟨le8 (BitVec.ofNat 64 l.start), sp, false⟩)
    (ca := ⟨f, l.ents.drop (f - l.start), bs⟩) (bs := bs) (by simp; omega)
  rw [List.append_nil] at hpos
  have hwr := packWrite_ok (X := idxBytes 0 l.ents) (P := datBytes l.ents) (Y := []) (Q := []) (st := ⟨le8 (BitVec.ofNat 64 l.start), sp, false⟩)
    (c := l.ents.length) (s0 := l.start) (bs := bs) (ca := ⟨f, l.ents.drop (f - l.start), bs⟩) hne hbase (by simp; omega)
  simp only [List.drop_nil, List.append_nil, datBytes_length, idxBytes_length] at hwr hpos
  have htr := packTrunc_ok (X := idxBytes 0 l.ents ++ idxBytes (dataSize l.ents) es) (Y := []) (P := datBytes l.ents ++ datBytes es) (Q := [])
    (st := ⟨le8 (BitVec.ofNat 64 l.start), sp, false⟩)
    (c := l.ents.length) (s0 := l.start) (bs := bs) (ca := ⟨f, l.ents.drop (f - l.start), bs⟩)
  simp only [List.append_nil, if_true, List.length_nil, Nat.add_zero, List.length_append, datBytes_length, idxBytes_length] at htr
  change _ = applyPack l.next (le4 (BitVec.ofNat 32 (8 * es.length)) ++ (le4 (BitVec.ofNat 32 (dataSize es)) ++ (idxBytes base es ++ datBytes es))) _
  rw [applyPack, bget, if_neg (by simp), if_neg (by simp; omega), e1, e2, e3, dec4_le4, dec4_le4, hn1, hm1,
    if_neg (by simp only [hn2, hm2, or_self, not_false_eq_true])]
  simp only [repStore]
  rw [subU64_eq (by omega) (by omega), show l.next - l.start = l.ents.length by omega, run_bind_ok hpos, run_bind_ok hwr, run_bind_ok htr,
    show 8 * es.length / 8 = es.length by omega]
  rfl

/-- C118 is false of the files: if the positions fit and the data does not, the store cannot be opened again. -/
theorem failed_pack_not_openable {s : Store} {l : Log} (h : Reach s l) (p : List Byte) (es : List Ent) (hp : PackOf p es) (hne : es ≠ [])
    (hf : Log.Fits ⟨l.start, l.ents ++ es⟩) (b : Int) (hb : b ≠ 0) :
    ∃ s', applyPackF { dat := some 0 } l.next p s = (.error .thrown, s') ∧ openOn s'.disk b = .error .thrown := by
  have hpos : 0 < dataSize es := by
    have h1 := count_le_dataSize es
    have := List.length_pos_iff.2 hne
    omega
  obtain ⟨s', h1, h2⟩ := failed_pack_files h p es hp hne hf (w := { dat := some 0 }) (.inr ⟨0, rfl, hpos⟩)
  refine ⟨s', h1, ?_⟩
  rw [h2]
  show openOn (packPart s.disk es (8 * es.length) (min 0 (dataSize es))) b = _
  rw [Nat.zero_min]
  exact pack_crash_not_openable h es hne hf b hb

/-- C118 is false of the files: if the data fits and the positions do not, the last entry of the log has the entries of the pack as a part of
its payload when the store is opened again. -/
theorem failed_pack_extends {s : Store} {start : Nat} {F : List Ent} {x : Ent} (h : Reach s ⟨start, F ++ [x]⟩) (p : List Byte) (es : List Ent)
    (hp : PackOf p es) (hne : es ≠ []) (hf : Log.Fits ⟨start, (F ++ [x]) ++ es⟩) (b : Int) (hb : b ≠ 0) :
    ∃ s' s'', applyPackF { idx := some 0 } (Log.next ⟨start, F ++ [x]⟩) p s = (.error .thrown, s') ∧ openOn s'.disk b = .ok s'' ∧
      Shows s'' ⟨start, F ++ [{ x with data := x.data ++ es.flatMap Ent.bytes }]⟩ := by
  have hpos := List.length_pos_iff.2 hne
  obtain ⟨s', h1, h2⟩ := failed_pack_files h p es hp hne hf (w := { idx := some 0 }) (.inl ⟨0, rfl, by omega⟩)
  obtain ⟨s'', h3, h4⟩ := pack_crash_extends h es hf b hb
  refine ⟨s', s'', h1, ?_, h4⟩
  rw [h2]
  show openOn (packPart s.disk es (min 0 (8 * es.length)) (dataSize es)) b = _
  rw [Nat.zero_min]
  exact h3

/-- C118, what is in the files otherwise: if the room is for whole entries only, and for the same ones in both files, the store opened again shows the
log with these entries at its end. -/
theorem failed_pack_prefix {s : Store} {l : Log} (h : Reach s l) (p : List Byte) (es : List Ent) (hp : PackOf p es) (k : Nat) (hk : k < es.length)
    (hf : Log.Fits ⟨l.start, l.ents ++ es⟩) (b : Int) (hb : b ≠ 0) :
    ∃ s' s'', applyPackF { idx := some (8 * k), dat := some (dataSize (es.take k)) } l.next p s = (.error .thrown, s') ∧ openOn s'.disk b = .ok s'' ∧
      Shows s'' ⟨l.start, l.ents ++ es.take k⟩ := by
  have hne : es ≠ [] := List.ne_nil_of_length_pos (by omega)
  obtain ⟨s', h1, h2⟩ := failed_pack_files h p es hp hne hf (w := { idx := some (8 * k), dat := some (dataSize (es.take k)) })
    (.inl ⟨8 * k, rfl, by omega⟩)
  obtain ⟨s'', h3, h4⟩ := pack_crash_whole h es hf k (by omega) b hb
  refine ⟨s', s'', h1, ?_, h4⟩
  rw [h2]
  show openOn (packPart s.disk es (min (8 * k) (8 * es.length)) (min (dataSize (es.take k)) (dataSize es))) b = _
  rw [Nat.min_eq_left (by omega), Nat.min_eq_left (dataSize_take_le es k)]
  exact h3

/-- A store of three entries, a pack of two, and a disk with room for the first of them, for half of a position, or for both. -/
example : ∃ s p, Reach s ⟨1, [e3, e3] ++ [e1]⟩ ∧ Log.start ⟨1, [e3, e3] ++ [e1]⟩ ≤ 2 ∧ 2 ≤ Log.next ⟨1, [e3, e3] ++ [e1]⟩ ∧ PackOf p [e1, e3] ∧ Log.Fits ⟨1, ([e3, e3] ++ [e1]) ++ [e1, e3]⟩ ∧
    FullP.Fails { idx := some 8, dat := some (dataSize [e1]) } [e1, e3] ∧ FullP.Fails { idx := some 4 } [e1, e3] ∧ ¬ FullP.Fails { idx := some 16 } [e1, e3] := by
  obtain ⟨s, h, -⟩ := reach_three
  refine ⟨s, _, h, by decide, by decide, .inr ⟨by decide, by decide, 0, by decide, rfl⟩, ⟨by decide, by decide, by decide⟩, .inl ⟨8, rfl, by decide⟩, .inl ⟨4, rfl, by decide⟩, ?_⟩
  rintro (⟨r, h1, h2⟩ | ⟨r, h1, -⟩)
  · cases h1; exact absurd h2 (by decide)
  · cases h1

end Cs.LogStore
