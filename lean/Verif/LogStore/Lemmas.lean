import Verif.LogStore.Spec

/-! # Helper lemmas for the log store -/

namespace Cs.LogStore
open Cs Cs.Buffer

/-! ## Bytes -/

/-- Content of the index file. -/
def idxBytes (b : Nat) (es : List Ent) : List Byte := (posns b es).flatMap fun q => le8 (BitVec.ofNat 64 q)
/-- Content of the data file. -/
def datBytes (es : List Ent) : List Byte := es.flatMap Ent.bytes

theorem Ent.bytes_length (e : Ent) : e.bytes.length = 9 + e.data.length := by
  simp [Ent.bytes]; omega

@[simp] theorem dataSize_nil : dataSize [] = 0 := rfl
@[simp] theorem dataSize_cons (e : Ent) (es : List Ent) : dataSize (e :: es) = 9 + e.data.length + dataSize es := rfl
@[simp] theorem dataSize_append (a b : List Ent) : dataSize (a ++ b) = dataSize a + dataSize b := by
  simp [dataSize]
@[simp] theorem datBytes_nil : datBytes [] = [] := rfl
@[simp] theorem datBytes_cons (e : Ent) (es : List Ent) : datBytes (e :: es) = e.bytes ++ datBytes es := rfl
@[simp] theorem datBytes_append (a b : List Ent) : datBytes (a ++ b) = datBytes a ++ datBytes b := by
  simp [datBytes]
@[simp] theorem datBytes_length (es : List Ent) : (datBytes es).length = dataSize es := by
  induction es with
  | nil => rfl
  | cons e es ih => simp [ih, Ent.bytes_length]
@[simp] theorem idxBytes_nil (b : Nat) : idxBytes b [] = [] := rfl
@[simp] theorem idxBytes_cons (b : Nat) (e : Ent) (es : List Ent) :
    idxBytes b (e :: es) = le8 (BitVec.ofNat 64 b) ++ idxBytes (b + (9 + e.data.length)) es := rfl
@[simp] theorem idxBytes_length (b : Nat) (es : List Ent) : (idxBytes b es).length = 8 * es.length := by
  induction es generalizing b with
  | nil => rfl
  | cons e es ih => simp [ih]; omega
theorem idxBytes_append (b : Nat) (x y : List Ent) :
    idxBytes b (x ++ y) = idxBytes b x ++ idxBytes (b + dataSize x) y := by
  induction x generalizing b with
  | nil => simp
  | cons e es ih => simp [ih, Nat.add_assoc]

theorem count_le_dataSize (es : List Ent) : 9 * es.length ≤ dataSize es := by
  induction es with
  | nil => simp
  | cons e es ih => simp; omega

theorem toNat_ofNat64 (n : Nat) (h : n < 2 ^ 64) : (BitVec.ofNat 64 n).toNat = n := by
  rw [BitVec.toNat_ofNat]; exact Nat.mod_eq_of_lt h

theorem dec8_pos (n : Nat) (h : n < 2 ^ 64) : (dec8 (le8 (BitVec.ofNat 64 n))).toNat = n := by
  rw [dec8_le8, toNat_ofNat64 n h]

theorem decode_bytes (e : Ent) : decode e.bytes = .ok e := by
  obtain ⟨t, v, d⟩ := e
  have hl : (Ent.bytes ⟨t, v, d⟩).length = 9 + d.length := Ent.bytes_length _
  rw [decode, if_neg (by omega)]
  have h1 : (Ent.bytes ⟨t, v, d⟩).take 8 = le8 t := rfl
  have h2 : (Ent.bytes ⟨t, v, d⟩).getD 8 0 = v := rfl
  have h3 : (Ent.bytes ⟨t, v, d⟩).drop 9 = d := rfl
  rw [h1, h2, h3, dec8_le8]

theorem serialize_ok (e : Ent) (h : 9 + e.data.length < 2 ^ 31) : serialize e = .ok e.bytes := by
  rw [serialize, if_neg (by omega)]

theorem subU64_eq {a b : Nat} (h : b ≤ a) (ha : a < 2 ^ 64) : subU64 a b = a - b := by
  unfold subU64
  rw [show a + 2 ^ 64 - b = (a - b) + 2 ^ 64 by omega, Nat.add_mod_right]
  exact Nat.mod_eq_of_lt (by omega)

theorem intSize_eq {n : Nat} (h : n < 2 ^ 31) : intSize n = n := by
  unfold intSize
  have hm : (BitVec.ofNat 32 n).msb = false := by
    rw [BitVec.msb_eq_false_iff_two_mul_lt, BitVec.toNat_ofNat]; omega
  rw [BitVec.signExtend_eq_setWidth_of_msb_false hm, BitVec.toNat_setWidth, BitVec.toNat_ofNat]
  omega

theorem overwrite_end (l bs : List Byte) : overwrite l l.length bs = l ++ bs := by
  simp [overwrite]

theorem overwrite_split (l1 l2 bs : List Byte) : overwrite (l1 ++ l2) l1.length bs = l1 ++ bs ++ l2.drop bs.length := by
  simp [overwrite, List.drop_append]

/-! ## Stream operations -/

theorem run_onIdx {α : Type} {m : M File α} {s : Store} {r : Except Fault α} {f : File} (h : m s.idx = (r, f)) :
    onIdx m s = (r, { s with idx := f }) := by rw [onIdx, h]
theorem run_onDat {α : Type} {m : M File α} {s : Store} {r : Except Fault α} {f : File} (h : m s.dat = (r, f)) :
    onDat m s = (r, { s with dat := f }) := by rw [onDat, h]
theorem run_onSti {α : Type} {m : M File α} {s : Store} {r : Except Fault α} {f : File} (h : m s.sti = (r, f)) :
    onSti m s = (r, { s with sti := f }) := by rw [onSti, h]

theorem seek_ok {f : File} (hb : f.bad = false) {p : Nat} (hp : p < 2 ^ 63) :
    seek p f = (.ok (), { f with pos := p }) := by
  rw [seek, run_bind_ok (run_get f), run_ite, if_neg (by simp [hb]), run_ite, if_neg (by omega)]; rfl

theorem seekEnd_ok {f : File} (hb : f.bad = false) : seekEnd f = (.ok (), { f with pos := f.bytes.length }) := by
  rw [seekEnd, run_modify, if_neg (by simp [hb])]

theorem tell_ok {f : File} (hb : f.bad = false) : tell f = (.ok f.pos, f) := by
  rw [tell, run_bind_ok (run_get f), run_pure, if_neg (by simp [hb])]

theorem read_ok {f : File} (hb : f.bad = false) {l1 bs l2 : List Byte} (hl : f.bytes = l1 ++ (bs ++ l2))
    (hp : f.pos = l1.length) {n : Nat} (hn : n = bs.length) :
    read n f = (.ok bs, { f with pos := l1.length + bs.length }) := by
  subst hn
  rw [read, run_bind_ok (run_get f), run_ite, if_neg (by simp [hb]), run_ite, if_pos (by rw [hl, hp]; simp), run_bind_ok (run_set _ _),
    run_pure, hl, hp, List.drop_left' rfl, List.take_left' rfl]

theorem read_short {f : File} (hb : f.bad = false) {n : Nat} (hn : f.bytes.length < f.pos + n) :
    read n f = (.error .thrown, { f with bad := true }) := by
  rw [read, run_bind_ok (run_get f), run_ite, if_neg (by simp [hb]), run_ite, if_neg (by omega), run_bind_ok (run_set _ _), run_throw]

theorem readBlock_ok {f : File} (hb : f.bad = false) {l1 bs l2 : List Byte} (hl : f.bytes = l1 ++ (bs ++ l2))
    (hp : f.pos = l1.length) {n : Nat} (hn : n = bs.length) (hs : bs.length < 2 ^ 31) :
    readBlock n f = (.ok bs, { f with pos := l1.length + bs.length }) := by
  rw [readBlock, if_neg (by omega), read_ok hb hl hp hn]

theorem readULong_ok {f : File} (hb : f.bad = false) {l1 l2 : List Byte} {q : Nat} (hq : q < 2 ^ 64)
    (hl : f.bytes = l1 ++ (le8 (BitVec.ofNat 64 q) ++ l2)) (hp : f.pos = l1.length) :
    readULong f = (.ok q, { f with pos := l1.length + 8 }) := by
  rw [readULong, run_bind_ok (readBlock_ok hb hl hp (by rw [le8_length]) (by simp)), run_pure, dec8_pos q hq,
    le8_length]

theorem write_ok {f : File} (hb : f.bad = false) (bs : List Byte) :
    write bs f = (.ok (), { f with bytes := overwrite f.bytes f.pos bs, pos := f.pos + bs.length }) := by
  rw [write, run_bind_ok (run_get f), run_ite, if_neg (by simp [hb]), run_set]

theorem writeRaw_ok {f : File} (hb : f.bad = false) (bs : List Byte) :
    writeRaw bs f = (.ok (), { f with bytes := overwrite f.bytes f.pos bs, pos := f.pos + bs.length }) := by
  rw [writeRaw, run_modify, if_neg (by simp [hb])]

theorem truncateReopen_ok (f : File) {l1 l2 : List Byte} (hl : f.bytes = l1 ++ l2) {n : Nat} (hn : n = l1.length) :
    truncateReopen n f = (.ok (), File.opened l1) := by
  subst hn
  rw [truncateReopen, run_modify, hl, List.take_left' rfl]
  simp

/-! The same, for a stream given by its parts, and inside a sequence of statements. -/

section
variable {α β : Type} {f f' d st i : File} {c s0 bs : Nat} {ca : Cache}

theorem bIdx {m : M File α} {k : α → M Store β} {a : α} (h : m f = (.ok a, f')) :
    (onIdx m >>= k) ⟨f, d, st, c, s0, ca, bs⟩ = k a ⟨f', d, st, c, s0, ca, bs⟩ := by
  rw [run_bind_ok (run_onIdx h)]
theorem bDat {m : M File α} {k : α → M Store β} {a : α} (h : m f = (.ok a, f')) :
    (onDat m >>= k) ⟨i, f, st, c, s0, ca, bs⟩ = k a ⟨i, f', st, c, s0, ca, bs⟩ := by
  rw [run_bind_ok (run_onDat h)]
theorem bSti {m : M File α} {k : α → M Store β} {a : α} (h : m f = (.ok a, f')) :
    (onSti m >>= k) ⟨i, d, f, c, s0, ca, bs⟩ = k a ⟨i, d, f', c, s0, ca, bs⟩ := by
  rw [run_bind_ok (run_onSti h)]
theorem eIdx {m : M File α} {k : α → M Store β} {e : Fault} (h : m f = (.error e, f')) :
    (onIdx m >>= k) ⟨f, d, st, c, s0, ca, bs⟩ = (.error e, ⟨f', d, st, c, s0, ca, bs⟩) := by
  rw [run_bind_err (run_onIdx h)]
theorem eDat {m : M File α} {k : α → M Store β} {e : Fault} (h : m f = (.error e, f')) :
    (onDat m >>= k) ⟨i, f, st, c, s0, ca, bs⟩ = (.error e, ⟨i, f', st, c, s0, ca, bs⟩) := by
  rw [run_bind_err (run_onDat h)]
end

section
variable {b l1 l2 bs : List Byte} {p q n : Nat}
theorem sk (hp : q < 2 ^ 63) : seek q ⟨b, p, false⟩ = (.ok (), ⟨b, q, false⟩) := seek_ok rfl hp
theorem se : seekEnd ⟨b, p, false⟩ = (.ok (), ⟨b, b.length, false⟩) := seekEnd_ok rfl
theorem tl : tell ⟨b, p, false⟩ = (.ok p, ⟨b, p, false⟩) := tell_ok rfl
theorem rb (hl : b = l1 ++ (bs ++ l2)) (hp : p = l1.length) (hn : n = bs.length) (hs : bs.length < 2 ^ 31) :
    readBlock n ⟨b, p, false⟩ = (.ok bs, ⟨b, l1.length + bs.length, false⟩) := readBlock_ok rfl hl hp hn hs
theorem ru (hq : q < 2 ^ 64) (hl : b = l1 ++ (le8 (BitVec.ofNat 64 q) ++ l2)) (hp : p = l1.length) :
    readULong ⟨b, p, false⟩ = (.ok q, ⟨b, l1.length + 8, false⟩) := readULong_ok rfl hq hl hp
theorem wrt : write bs ⟨b, p, false⟩ = (.ok (), ⟨overwrite b p bs, p + bs.length, false⟩) := write_ok rfl bs
theorem wrr : writeRaw bs ⟨b, p, false⟩ = (.ok (), ⟨overwrite b p bs, p + bs.length, false⟩) := writeRaw_ok rfl bs
theorem trc (hl : b = l1 ++ l2) (hn : n = l1.length) {x : Bool} :
    truncateReopen n ⟨b, p, x⟩ = (.ok (), ⟨l1, l1.length, false⟩) := truncateReopen_ok _ hl hn
end

theorem bget {β : Type} {k : Store → M Store β} {s : Store} : (get >>= k) s = k s s := rfl
theorem bmod {β : Type} {g : Store → Store} {k : PUnit → M Store β} {s : Store} : (modify g >>= k) s = k ⟨⟩ (g s) := rfl
theorem blift {α β : Type} {a : α} {k : α → M Store β} {s : Store} : (lift (.ok a) >>= k) s = k a s := rfl
theorem bpure {α β : Type} {a : α} {k : α → M Store β} {s : Store} : (pure a >>= k) s = k a s := rfl

theorem lift_ok {α : Type} (a : α) (s : Store) : lift (.ok a) s = (.ok a, s) := rfl
theorem lift_err {α : Type} (e : Fault) (s : Store) : lift (α := α) (.error e) s = (.error e, s) := rfl

theorem checkIO_ok {s : Store} (h1 : s.dat.bad = false) (h2 : s.idx.bad = false) : checkIO s = (.ok (), s) := by
  rw [checkIO, run_bind_ok (run_get s), run_ite, if_neg (by simp [h1, h2])]; rfl

theorem bchk {β : Type} {k : Unit → M Store β} {ib db : List Byte} {ip dp : Nat} {st : File} {c s0 bs : Nat} {ca : Cache} :
    (checkIO >>= k) ⟨⟨ib, ip, false⟩, ⟨db, dp, false⟩, st, c, s0, ca, bs⟩ =
      k () ⟨⟨ib, ip, false⟩, ⟨db, dp, false⟩, st, c, s0, ca, bs⟩ := by
  rw [run_bind_ok (checkIO_ok rfl rfl)]

/-! ## Cache -/

theorem Cache.append_room {c : Cache} {e : Ent} (h : c.buf.length + 1 ≤ c.max) :
    c.append e = { c with buf := c.buf ++ [e] } := by
  rw [Cache.append, if_neg (by simp; omega)]

/-! ## Filling the cache -/

/-- The part of `fillFrom` after the first position. -/
def fillRest (dataLen b : Nat) (idxBuf : List Byte) : M Store Unit := do
  let dataStart ← fillLoop b idxBuf
  let bs ← onDat (readBlock (subU64 dataLen dataStart))
  let e ← lift (decode bs)
  modify fun s => { s with cache := s.cache.append e }

theorem fillLoop_cons (b : Nat) (v : U64) (rest : List Byte) : fillLoop b (le8 v ++ rest) = (do
    let bs ← onDat (readBlock (subU64 (dec8 (le8 v)).toNat b))
    let e ← lift (decode bs)
    modify fun s => { s with cache := s.cache.append e }
    fillLoop (dec8 (le8 v)).toNat rest) := rfl

theorem fillLoop_nil (b : Nat) : fillLoop b [] = pure b := rfl

theorem fillRest_cons (L b : Nat) (v : U64) (rest : List Byte) : fillRest L b (le8 v ++ rest) = (do
    let bs ← onDat (readBlock (subU64 (dec8 (le8 v)).toNat b))
    let e ← lift (decode bs)
    modify fun s => { s with cache := s.cache.append e }
    fillRest L (dec8 (le8 v)).toNat rest) := by
  rw [fillRest, fillLoop_cons]
  simp only [bind_assoc, fillRest]

theorem fillRest_ok (es : List Ent) : ∀ (e0 : Ent) (pre : List Byte) (s : Store), s.dat.bad = false →
    s.dat.bytes = pre ++ datBytes (e0 :: es) → s.dat.pos = pre.length →
    pre.length + dataSize (e0 :: es) < 2 ^ 31 → s.cache.buf.length + (e0 :: es).length ≤ s.cache.max →
    fillRest (pre.length + dataSize (e0 :: es)) pre.length (idxBytes (pre.length + (9 + e0.data.length)) es) s =
      (.ok (), { s with dat := { s.dat with pos := pre.length + dataSize (e0 :: es) },
                        cache := { s.cache with buf := s.cache.buf ++ (e0 :: es) } }) := by
  induction es with
  | nil =>
    intro e0 pre s hb hd hp hs hc
    simp only [datBytes_cons, datBytes_nil, dataSize_cons, dataSize_nil, List.length_cons, List.length_nil] at hd hs hc
    have hbl := e0.bytes_length
    rw [fillRest, idxBytes_nil, fillLoop_nil, run_bind_ok (run_pure _ _)]
    rw [run_bind_ok (run_onDat (readBlock_ok hb hd hp (n := subU64 (pre.length + dataSize [e0]) pre.length)
      (by rw [subU64_eq (by omega) (by simp; omega)]; simp; omega) (by omega)))]
    rw [decode_bytes, run_bind_ok (lift_ok _ _), run_modify]
    simp only []
    rw [Cache.append_room (by omega)]
    simp [hbl]
  | cons e1 es ih =>
    intro e0 pre s hb hd hp hs hc
    have hbl := e0.bytes_length
    simp only [dataSize_cons, List.length_cons] at hs hc
    rw [idxBytes_cons, fillRest_cons]
    have hd' : s.dat.bytes = pre ++ (e0.bytes ++ datBytes (e1 :: es)) := by rw [hd, datBytes_cons]
    rw [dec8_pos _ (by omega)]
    rw [run_bind_ok (run_onDat (readBlock_ok hb hd' hp (by rw [subU64_eq (by omega) (by omega)]; omega) (by omega)))]
    rw [decode_bytes, run_bind_ok (lift_ok _ _), run_bind_ok (run_modify _ _)]
    have := ih e1 (pre ++ e0.bytes)
      { s with dat := { s.dat with pos := pre.length + e0.bytes.length }, cache := s.cache.append e0 } hb
      (by simp [hd]) (by simp) (by simp [hbl]; omega)
      (by rw [Cache.append_room (by omega)]; simp; omega)
    rw [List.length_append, hbl] at this
    simp only [dataSize_cons] at this ⊢
    rw [hbl]
    rw [show pre.length + (9 + e0.data.length + (9 + e1.data.length + dataSize es)) =
      pre.length + (9 + e0.data.length) + (9 + e1.data.length + dataSize es) by omega]
    rw [this, Cache.append_room (by omega)]
    simp

end Cs.LogStore
