import Verif.Buffer.Stream

/-!
# Properties of buffers (C01 - C04)

The statements below only use the API functions of the model (`alloc`, `size`, `pos`, `seek`, `put*`, `get*`).
-/

namespace Cs.Buffer
open Cs

/-! ## Specification vocabulary -/

/-- The operations of the API that check their bounds, with their arguments. -/
inductive Op where
  | getInt | getULong | getByte | getStr
  | putByte (v : Byte) | putInt (v : I32) | putULong (v : U64) | putStr (s : List Byte) | putBuf (src : Buf)
  | seek (p : Nat)

/-- Call one operation, ignoring the value it returns. -/
def Op.call : Op → BM Unit
  | .getInt => do let _ ← Buffer.getInt
  | .getULong => do let _ ← Buffer.getULong
  | .getByte => do let _ ← Buffer.getByte
  | .getStr => do let _ ← Buffer.getStr
  | .putByte v => Buffer.putByte v
  | .putInt v => Buffer.putInt v
  | .putULong v => Buffer.putULong v
  | .putStr s => Buffer.putStr s
  | .putBuf src => Buffer.putBuf src
  | .seek p => Buffer.seek p

/-- Buffers a program can hold: allocated, then used with checked operations (a nested source being such a buffer
itself) in any order, whether or not calls threw. -/
inductive Reach : Buf → Prop
  | alloc (junk : Byte) (n : Nat) (b : Buf) : Buffer.alloc junk n = .ok b → Reach b
  | op (b : Buf) (o : Op) : Reach b → (∀ src, o = .putBuf src → Reach src) → Reach (o.call b).2
  /-- bytes stored through `data()` within the block, e.g. by a socket or file read -/
  | fill (b : Buf) (l : List Byte) : Reach b → l.length = b.data.length → Reach { b with data := l }

/-- Bytes still to be read, `data()[0 .. size() - pos())`. -/
def Buf.content (b : Buf) : List Byte := b.data.drop b.pos

/-- A typed value that can be written to a buffer. A nested buffer is written from its position to its end. -/
inductive Item where
  | byte (v : Byte) | int (v : I32) | ulong (v : U64) | str (s : List Byte) | buf (src : Buf)

/-- What a read returns. -/
inductive Val where
  | byte (v : Byte) | int (v : I32) | ulong (v : U64) | str (s : Option (List Byte)) | bytes (l : List Byte)

/-- Strings need to be non-empty and free of NUL, nested buffers need to be buffers. -/
def Item.Valid : Item → Prop
  | .str s => s ≠ [] ∧ ∀ c ∈ s, c ≠ 0
  | .buf src => Reach src
  | _ => True

/-- Bytes needed by an item. -/
def Item.width : Item → Nat
  | .byte _ => 1 | .int _ => 4 | .ulong _ => 8 | .str s => s.length + 1 | .buf src => src.content.length

/-- The value a correct read returns. -/
def Item.val : Item → Val
  | .byte v => .byte v | .int v => .int v | .ulong v => .ulong v | .str s => .str (some s) | .buf src => .bytes src.content

def Item.put : Item → BM Unit
  | .byte v => putByte v | .int v => putInt v | .ulong v => putULong v | .str s => putStr s | .buf src => putBuf src

/-- Read a value of the same type as the item. A nested buffer is read into a freshly allocated one of the same width. -/
def Item.get (junk : Byte) : Item → BM Val
  | .byte _ => Val.byte <$> getByte
  | .int _ => Val.int <$> getInt
  | .ulong _ => Val.ulong <$> getULong
  | .str _ => Val.str <$> getStr
  | .buf src => do
    let dst ← liftM (n := BM) (m := Except Fault) (alloc junk src.content.length)
    let r ← getBuf dst
    pure (.bytes r.content)

def putAll : List Item → BM Unit
  | [] => pure ()
  | i :: is => do i.put; putAll is

def getAll (junk : Byte) : List Item → BM (List Val)
  | [] => pure []
  | i :: is => do
    let v ← i.get junk
    let vs ← getAll junk is
    pure (v :: vs)

/-! ## C01 -/

/-- C01: allocation, size and position, for every size and every requested position. -/
theorem C01_header (junk : Byte) (n : Nat) :
    (2 ^ 31 ≤ n → alloc junk n = .error .thrown) ∧
    (n < 2 ^ 31 → ∃ b, alloc junk n = .ok b ∧ b.size = n ∧ b.pos = 0 ∧ b.data.length = n ∧
      ∀ p, (seek p b).1 = .ok () ∧ (seek p b).2.size = n ∧ (seek p b).2.pos = min p n ∧
        (seek p b).2.data = b.data) := by
  constructor
  · intro h
    unfold alloc
    rw [if_pos (by omega)]
  · intro h
    obtain ⟨b, h1, h2, h3⟩ := alloc_hdr junk h
    refine ⟨b, h1, h2.size, h2.pos, h2.hlen, ?_⟩
    intro p
    have ha : At b b.data 0 := ⟨by rw [h2.hlen]; exact h2, rfl⟩
    have hs := seek_at ha p
    rw [seek_run ha p]
    refine ⟨rfl, ?_, ?_, setPos_data _ _⟩
    · rw [hs.size, h2.hlen]
    · rw [hs.pos, h2.hlen]

/-- Both sides of the small/big switch and the two ends of the range are covered. -/
example : (∃ b, alloc 7 0x7fff = .ok b ∧ b.size = 0x7fff) ∧ (∃ b, alloc 7 0x8000 = .ok b ∧ b.size = 0x8000) ∧
    alloc 7 0x80000000 = .error .thrown := by
  refine ⟨?_, ?_, (C01_header 7 _).1 (by decide)⟩
  · obtain ⟨b, h1, h2, _⟩ := (C01_header 7 0x7fff).2 (by decide); exact ⟨b, h1, h2⟩
  · obtain ⟨b, h1, h2, _⟩ := (C01_header 7 0x8000).2 (by decide); exact ⟨b, h1, h2⟩

/-! ## C03 -/

/-- What one call does to a healthy buffer. -/
structure CallOk (b : Buf) (r : Except Fault Unit × Buf) : Prop where
  /-- the outcome is success or a C++ exception, never undefined behaviour or termination -/
  outcome : r.1 = .ok () ∨ r.1 = .error .thrown
  size : r.2.size = b.size
  len : r.2.data.length = b.data.length
  pos : r.2.pos ≤ r.2.size
  /-- a call that throws changes nothing -/
  thrown : r.1 = .error .thrown → r.2 = b

theorem at_of {b : Buf} {n p : Nat} (h : HdrAt b n p) : At b b.data p := ⟨by rw [h.hlen]; exact h, rfl⟩

theorem map_unit_ok {α : Type} {m : BM α} {b b' : Buf} {a : α} (h : m b = (.ok a, b')) :
    (do let _ ← m : BM Unit) b = (.ok (), b') := by rw [run_bind_ok h]; rfl

theorem map_unit_err {α : Type} {m : BM α} {b b' : Buf} {e : Fault} (h : m b = (.error e, b')) :
    (do let _ ← m : BM Unit) b = (.error e, b') := run_bind_err h

theorem CallOk.of_at {b b' : Buf} {d d' p p'} (h : At b d p) (h' : At b' d' p') (hl : d'.length = d.length) :
    CallOk b (.ok (), b') :=
  ⟨Or.inl rfl, by simp only [h.size, h'.size, hl], by simp only [h.data, h'.data, hl],
   by simp only [h'.pos, h'.size]; exact h'.le, by intro hc; simp at hc⟩

theorem CallOk.refl_thrown {b : Buf} {d p} (h : At b d p) : CallOk b (.error .thrown, b) :=
  ⟨Or.inr rfl, rfl, rfl, by simp only [h.pos, h.size]; exact h.le, fun _ => rfl⟩

theorem call_ok {b d p} (h : At b d p) (o : Op) (hs : ∀ src, o = .putBuf src → ∃ ds ps, At src ds ps) :
    CallOk b (o.call b) ∧ ∃ d' p', At (o.call b).2 d' p' := by
  have keep : ∃ d' p', At b d' p' := ⟨d, p, h⟩
  have mv : ∀ k, p + k ≤ d.length → CallOk b (.ok (), b.mvFw k) ∧ ∃ d' p', At (b.mvFw k) d' p' := by
    intro k hk
    exact ⟨CallOk.of_at h (h.mvFw hk) rfl, _, _, h.mvFw hk⟩
  cases o with
  | getInt =>
    simp only [Op.call]
    by_cases hl : p + 4 ≤ d.length
    · rw [map_unit_ok (getInt_ok h hl)]; exact mv 4 hl
    · rw [map_unit_err (getInt_short h hl)]; exact ⟨CallOk.refl_thrown h, keep⟩
  | getULong =>
    simp only [Op.call]
    by_cases hl : p + 8 ≤ d.length
    · rw [map_unit_ok (getULong_ok h hl)]; exact mv 8 hl
    · rw [map_unit_err (getULong_short h hl)]; exact ⟨CallOk.refl_thrown h, keep⟩
  | getByte =>
    simp only [Op.call]
    by_cases hl : p + 1 ≤ d.length
    · rw [map_unit_ok (getByte_ok h hl)]; exact mv 1 hl
    · rw [map_unit_err (getByte_short h hl)]; exact ⟨CallOk.refl_thrown h, keep⟩
  | getStr =>
    simp only [Op.call]
    by_cases hc : p + nulRun (d.drop p) ≥ d.length ∨ nulRun (d.drop p) = 0
    · have := getStr_run h
      rw [if_pos hc] at this
      rw [map_unit_ok this]
      exact ⟨CallOk.of_at h h rfl, keep⟩
    · have := getStr_run h
      rw [if_neg hc] at this
      rw [map_unit_ok this]
      exact mv _ (by omega)
  | putByte v =>
    simp only [Op.call]
    by_cases hl : p + 1 ≤ d.length
    · obtain ⟨b', h1, h2⟩ := putByte_ok h v hl
      rw [h1]; exact ⟨CallOk.of_at h h2 (splice_length _ _ _ hl), _, _, h2⟩
    · rw [putByte_full h v hl]; exact ⟨CallOk.refl_thrown h, keep⟩
  | putInt v =>
    simp only [Op.call]
    by_cases hl : p + 4 ≤ d.length
    · obtain ⟨b', h1, h2⟩ := putInt_ok h v hl
      rw [h1]; exact ⟨CallOk.of_at h h2 (splice_length _ _ _ hl), _, _, h2⟩
    · rw [putInt_full h v hl]; exact ⟨CallOk.refl_thrown h, keep⟩
  | putULong v =>
    simp only [Op.call]
    by_cases hl : p + 8 ≤ d.length
    · obtain ⟨b', h1, h2⟩ := putULong_ok h v hl
      rw [h1]; exact ⟨CallOk.of_at h h2 (splice_length _ _ _ hl), _, _, h2⟩
    · rw [putULong_full h v hl]; exact ⟨CallOk.refl_thrown h, keep⟩
  | putStr s =>
    simp only [Op.call]
    by_cases hl : p + (s.length + 1) ≤ d.length
    · obtain ⟨b', h1, h2⟩ := putStr_ok h s hl
      rw [h1]; exact ⟨CallOk.of_at h h2 (splice_length _ _ _ (by simpa using hl)), _, _, h2⟩
    · rw [putStr_full h s hl]; exact ⟨CallOk.refl_thrown h, keep⟩
  | putBuf src =>
    simp only [Op.call]
    obtain ⟨ds, ps, hs⟩ := hs src rfl
    by_cases hl : p + (ds.length - ps) ≤ d.length
    · obtain ⟨b', h1, h2⟩ := putBuf_ok h hs hl
      rw [h1]; exact ⟨CallOk.of_at h h2 (splice_length _ _ _ (by simpa using hl)), _, _, h2⟩
    · rw [putBuf_full h hs hl]; exact ⟨CallOk.refl_thrown h, keep⟩
  | seek q =>
    simp only [Op.call]
    rw [seek_run h q]
    exact ⟨CallOk.of_at h (seek_at h q) rfl, _, _, seek_at h q⟩

theorem Reach.at {b : Buf} (h : Reach b) : ∃ d p, At b d p := by
  induction h with
  | alloc junk n b hb =>
    by_cases hn : n < 2 ^ 31
    · obtain ⟨b', h1, h2, _⟩ := alloc_hdr junk hn
      rw [h1] at hb
      cases hb
      exact ⟨_, _, at_of h2⟩
    · unfold Buffer.alloc at hb
      rw [if_pos (by omega)] at hb
      cases hb
  | op b o _ _ ih ih2 =>
    obtain ⟨d, p, h⟩ := ih
    exact (call_ok h o ih2).2
  | fill b l _ hl ih =>
    obtain ⟨d, p, h⟩ := ih
    exact ⟨l, p, h.withData (by rw [hl, h.data])⟩

theorem At.reach {b : Buf} {d p} (h : At b d p) : Reach b := by
  obtain ⟨b0, h1, h2, h3⟩ := alloc_hdr 0 h.hdr.hn
  have r0 : Reach b0 := Reach.alloc 0 _ b0 h1
  have r1 : Reach { b0 with data := d } := Reach.fill b0 d r0 (by rw [h2.hlen])
  have a1 : At { b0 with data := d } d 0 := ⟨h2.withData rfl, rfl⟩
  have r2 := Reach.op _ (Op.seek p) r1 (by intro s e; cases e)
  have hp := h.le
  simp only [Op.call, seek_run a1 p] at r2
  have a2 := seek_at a1 p
  rw [Nat.min_eq_left hp] at a2 r2
  rw [HdrAt.ext h.hdr a2.hdr (by rw [h.data, a2.data])]
  exact r2

theorem reach_iff {b : Buf} : Reach b ↔ ∃ d p, At b d p := ⟨Reach.at, fun ⟨_, _, h⟩ => h.reach⟩

/-- C03: on every buffer a program can hold, every checked operation returns or throws but never has undefined
behaviour, keeps the position inside the buffer, and changes nothing when it throws. -/
theorem C03_call_safe (b : Buf) (h : Reach b) (o : Op) (hs : ∀ src, o = .putBuf src → Reach src) :
    CallOk b (o.call b) := by
  obtain ⟨d, p, h⟩ := h.at
  exact (call_ok h o fun src e => (hs src e).at).1

/-- C03: the size reported by the header of every such buffer is the number of bytes allocated and the position lies
within it. -/
theorem C03_header_truthful (b : Buf) (h : Reach b) : b.size = b.data.length ∧ b.pos ≤ b.size := by
  obtain ⟨d, p, h⟩ := h.at
  refine ⟨by rw [h.size, h.data], by rw [h.pos, h.size]; exact h.le⟩

theorem splice_outside (l : List Byte) (i : Nat) (bs : List Byte) (h : i + bs.length ≤ l.length) :
    (splice l i bs).take i = l.take i ∧ (splice l i bs).drop (i + bs.length) = l.drop (i + bs.length) := by
  unfold splice
  constructor
  · rw [List.append_assoc, List.take_left' (by simp; omega)]
  · rw [List.drop_left' (by simp; omega)]

/-- C03: a write changes only the bytes between the old and the new position; reads and seeks change no byte. -/
theorem C03_frame (b : Buf) (h : Reach b) (o : Op) (hs : ∀ src, o = .putBuf src → Reach src) :
    (o.call b).2.data.take b.pos = b.data.take b.pos ∧
    (o.call b).2.data.drop (max b.pos (o.call b).2.pos) = b.data.drop (max b.pos (o.call b).2.pos) := by
  obtain ⟨d, p, h⟩ := h.at
  have mvd : ∀ (q : Nat), (b.mvFw q).data = b.data := fun q => mvFw_data b q
  have fin : ∀ (b' : Buf) (bs : List Byte) (k : Nat), k = bs.length → p + k ≤ d.length → At b' (splice d p bs) (p + k) →
      b'.data.take b.pos = b.data.take b.pos ∧ b'.data.drop (max b.pos b'.pos) = b.data.drop (max b.pos b'.pos) := by
    intro b' bs k hk hl h2
    subst hk
    have := splice_outside d p bs hl
    rw [h2.data, h2.pos, h.pos, h.data, Nat.max_eq_right (by omega)]
    exact this
  cases o with
  | getInt =>
    simp only [Op.call]
    by_cases hl : p + 4 ≤ d.length
    · rw [map_unit_ok (getInt_ok h hl)]; simp [mvd]
    · rw [map_unit_err (getInt_short h hl)]; simp
  | getULong =>
    simp only [Op.call]
    by_cases hl : p + 8 ≤ d.length
    · rw [map_unit_ok (getULong_ok h hl)]; simp [mvd]
    · rw [map_unit_err (getULong_short h hl)]; simp
  | getByte =>
    simp only [Op.call]
    by_cases hl : p + 1 ≤ d.length
    · rw [map_unit_ok (getByte_ok h hl)]; simp [mvd]
    · rw [map_unit_err (getByte_short h hl)]; simp
  | getStr =>
    simp only [Op.call]
    by_cases hc : p + nulRun (d.drop p) ≥ d.length ∨ nulRun (d.drop p) = 0
    · have := getStr_run h
      rw [if_pos hc] at this
      rw [map_unit_ok this]; simp
    · have := getStr_run h
      rw [if_neg hc] at this
      rw [map_unit_ok this]; simp [mvd]
  | putByte v =>
    simp only [Op.call]
    by_cases hl : p + 1 ≤ d.length
    · obtain ⟨b', h1, h2⟩ := putByte_ok h v hl
      rw [h1]; exact fin b' [v] 1 rfl hl h2
    · rw [putByte_full h v hl]; simp
  | putInt v =>
    simp only [Op.call]
    by_cases hl : p + 4 ≤ d.length
    · obtain ⟨b', h1, h2⟩ := putInt_ok h v hl
      rw [h1]; exact fin b' (le4 v) 4 rfl hl h2
    · rw [putInt_full h v hl]; simp
  | putULong v =>
    simp only [Op.call]
    by_cases hl : p + 8 ≤ d.length
    · obtain ⟨b', h1, h2⟩ := putULong_ok h v hl
      rw [h1]; exact fin b' (le8 v) 8 rfl hl h2
    · rw [putULong_full h v hl]; simp
  | putStr s =>
    simp only [Op.call]
    by_cases hl : p + (s.length + 1) ≤ d.length
    · obtain ⟨b', h1, h2⟩ := putStr_ok h s hl
      rw [h1]; exact fin b' _ _ (by simp) hl h2
    · rw [putStr_full h s hl]; simp
  | putBuf src =>
    simp only [Op.call]
    obtain ⟨ds, ps, hs⟩ := (hs src rfl).at
    by_cases hl : p + (ds.length - ps) ≤ d.length
    · obtain ⟨b', h1, h2⟩ := putBuf_ok h hs hl
      rw [h1]; exact fin b' _ _ (by simp) hl h2
    · rw [putBuf_full h hs hl]; simp
  | seek q =>
    simp only [Op.call]
    rw [seek_run h q]
    simp [setPos_data]

/-- Non-trivial instance: a full buffer, whose next `put` throws. -/
example : ∃ b, Reach b ∧ b.size = 1 ∧ (Op.call (.putByte 3) b).1 = .error .thrown := by
  refine ⟨((Op.call (.putByte 9)) (match alloc 0 1 with | .ok b => b | .error _ => ⟨0, 0, []⟩)).2, ?_, by decide, by decide⟩
  exact Reach.op _ _ (Reach.alloc 0 1 _ rfl) (by intro s h; cases h)

/-! ## C02 -/

theorem content_at {b d p} (h : At b d p) : b.content = d.drop p := by rw [Buf.content, h.data, h.pos]

theorem put_item {b done k} (h : Wr b done k) (i : Item) (hv : i.Valid) (hk : i.width ≤ k) :
    ∃ b' bs, i.put b = (.ok (), b') ∧ bs.length = i.width ∧ Wr b' (done ++ bs) (k - i.width) ∧
      ∀ junk (r : Buf) pre rest, Rd r pre (bs ++ rest) →
        ∃ r', i.get junk r = (.ok i.val, r') ∧ Rd r' (pre ++ bs) rest := by
  cases i with
  | byte v =>
    obtain ⟨b', h1, h2⟩ := h.putByte v hk
    refine ⟨b', [v], h1, rfl, h2, ?_⟩
    intro junk r pre rest hr
    obtain ⟨r', h3, h4⟩ := Rd.getByte hr
    exact ⟨r', by simp only [Item.get, map_eq_pure_bind, run_bind_ok h3]; rfl, h4⟩
  | int v =>
    obtain ⟨b', h1, h2⟩ := h.putInt v hk
    refine ⟨b', le4 v, h1, rfl, h2, ?_⟩
    intro junk r pre rest hr
    obtain ⟨r', h3, h4⟩ := Rd.getInt v hr
    exact ⟨r', by simp only [Item.get, map_eq_pure_bind, run_bind_ok h3]; rfl, h4⟩
  | ulong v =>
    obtain ⟨b', h1, h2⟩ := h.putULong v hk
    refine ⟨b', le8 v, h1, rfl, h2, ?_⟩
    intro junk r pre rest hr
    obtain ⟨r', h3, h4⟩ := Rd.getULong v hr
    exact ⟨r', by simp only [Item.get, map_eq_pure_bind, run_bind_ok h3]; rfl, h4⟩
  | str s =>
    obtain ⟨b', h1, h2⟩ := h.putStr s hk
    refine ⟨b', s ++ [0], h1, by simp [Item.width], h2, ?_⟩
    intro junk r pre rest hr
    obtain ⟨r', h3, h4⟩ := Rd.getStr s hv.1 hv.2 (b := r) (pre := pre) (rest := rest) (by simpa using hr)
    exact ⟨r', by simp only [Item.get, map_eq_pure_bind, run_bind_ok h3]; rfl, h4⟩
  | buf src =>
    obtain ⟨ds, ps, hs⟩ := Reach.at hv
    have hc := content_at hs
    have hsr : Rd src (ds.take ps) (ds.drop ps) := by
      have hle := hs.le
      have : (ds.take ps).length = ps := by rw [List.length_take]; omega
      rw [Rd, List.take_append_drop, this]; exact hs
    have hlt := hsr.lt
    obtain ⟨b', h1, h2⟩ := h.putBuf hsr (by rw [← hc]; exact hk)
    refine ⟨b', ds.drop ps, h1, by simp only [Item.width, hc], by simpa only [Item.width, hc] using h2, ?_⟩
    intro junk r pre rest hr
    obtain ⟨dst, h3, h4⟩ := Rd.alloc junk (n := (ds.drop ps).length) (by omega)
    obtain ⟨dst', r', h5, h6, h7⟩ := hr.getBuf h4 (by simp)
    refine ⟨r', ?_, h7⟩
    have hcd : dst'.content = ds.drop ps := by rw [content_at h6]; simp
    simp only [Item.get, hc, h3, run_bind_ok (run_liftExcept_ok _ _), run_bind_ok h5, run_pure, hcd, Item.val]

theorem put_items : ∀ (is : List Item) (_ : ∀ i ∈ is, i.Valid) (b : Buf) (done : List Byte) (k : Nat), Wr b done k →
    (is.map Item.width).sum ≤ k →
    ∃ b' bs, putAll is b = (.ok (), b') ∧ bs.length = (is.map Item.width).sum ∧ Wr b' (done ++ bs) (k - bs.length) ∧
      ∀ junk (r : Buf) pre rest, Rd r pre (bs ++ rest) →
        ∃ r', getAll junk is r = (.ok (is.map Item.val), r') ∧ Rd r' (pre ++ bs) rest := by
  intro is
  induction is with
  | nil =>
    intro _ b done k h _
    refine ⟨b, [], rfl, rfl, by simpa using h, ?_⟩
    intro junk r pre rest hr
    exact ⟨r, rfl, by simpa using hr⟩
  | cons i is ih =>
    intro hv b done k h hk
    simp only [List.mem_cons, forall_eq_or_imp] at hv
    simp only [List.map_cons, List.sum_cons] at hk
    obtain ⟨b1, bs1, p1, l1, w1, g1⟩ := put_item h i hv.1 (by omega)
    obtain ⟨b2, bs2, p2, l2, w2, g2⟩ := ih hv.2 b1 _ _ w1 (by omega)
    refine ⟨b2, bs1 ++ bs2, ?_, by simp [l1, l2], ?_, ?_⟩
    · rw [putAll, run_bind_ok p1, p2]
    · have : k - (bs1 ++ bs2).length = k - i.width - bs2.length := by simp [l1]; omega
      rw [this, ← List.append_assoc]; exact w2
    · intro junk r pre rest hr
      obtain ⟨r1, q1, x1⟩ := g1 junk r pre (bs2 ++ rest) (by simpa using hr)
      obtain ⟨r2, q2, x2⟩ := g2 junk r1 _ rest x1
      refine ⟨r2, ?_, by simpa using x2⟩
      rw [getAll, run_bind_ok q1, run_bind_ok q2]
      rfl

/-- C02: any sequence of valid items that fits is written without error; seeking back to where it started and reading the
same sequence of types returns exactly the written values and ends at the same position. -/
theorem C02_roundtrip (junk : Byte) (b : Buf) (hb : Reach b) (is : List Item) (hv : ∀ i ∈ is, i.Valid)
    (hfit : b.pos + (is.map Item.width).sum ≤ b.size) :
    ∃ b1 b2 b3, putAll is b = (.ok (), b1) ∧ b1.pos = b.pos + (is.map Item.width).sum ∧
      seek b.pos b1 = (.ok (), b2) ∧
      getAll junk is b2 = (.ok (is.map Item.val), b3) ∧ b3.pos = b1.pos := by
  obtain ⟨d, p, h⟩ := hb.at
  have hle := h.le
  have hw : Wr b (d.take p) (d.length - p) := by
    refine ⟨d.drop p, by simp, ?_⟩
    have : (d.take p).length = p := by rw [List.length_take]; omega
    rw [List.take_append_drop, this]; exact h
  rw [h.pos, h.size] at hfit
  obtain ⟨b1, bs, p1, l1, ⟨rest, hr, w1⟩, g⟩ := put_items is hv b _ _ hw (by omega)
  have htk : (d.take p).length = p := by rw [List.length_take]; omega
  have hs := w1.setPos (k := p) (by simp; omega)
  have hrd : Rd (b1.setPos p) (d.take p) (bs ++ rest) := by
    rw [Rd, htk, ← List.append_assoc]; exact hs
  obtain ⟨r, hg, hrr⟩ := g junk _ _ _ hrd
  refine ⟨b1, b1.setPos p, r, p1, ?_, ?_, hg, ?_⟩
  · rw [w1.pos, h.pos, List.length_append, htk, l1]
  · rw [h.pos, seek_run w1 p]
    rw [Nat.min_eq_left (by simp; omega)]
  · rw [w1.pos, At.pos hrr]

/-- Non-trivial instance: a fresh buffer of the right size, items of every kind. -/
example : ∃ b, Reach b ∧ (∀ i ∈ [Item.byte 200, .int 0xfffffffe, .str [104, 105], .ulong 0x8000000000000001], i.Valid) ∧
    b.pos + ([Item.byte 200, .int 0xfffffffe, .str [104, 105], .ulong 0x8000000000000001].map Item.width).sum ≤ b.size := by
  refine ⟨(match alloc 0 16 with | .ok b => b | .error _ => ⟨0, 0, []⟩), Reach.alloc 0 16 _ rfl, ?_, by decide⟩
  simp [Item.Valid]

/-! ## C04 -/

/-- C04 fails in general: reading 4 bytes out of a 2-byte buffer is an out-of-bounds read, for every content. -/
theorem C04_bulk_get_unchecked : ∃ src dst : Buf, Reach src ∧ Reach dst ∧ src.avail = 2 ∧ dst.avail = 4 ∧
    (getBuf dst src).1 = .error .ub :=
  ⟨(match alloc 0 2 with | .ok b => b | .error _ => ⟨0, 0, []⟩),
   (match alloc 0 4 with | .ok b => b | .error _ => ⟨0, 0, []⟩),
   Reach.alloc 0 2 _ rfl, Reach.alloc 0 4 _ rfl, by decide, by decide, by decide⟩

/-- C04, the part that holds: with enough bytes left the bulk read returns exactly the next bytes and advances over them.
Missing: the refusal when bytes are missing (see `C04_bulk_get_unchecked`). -/
theorem C04_bulk_get_partial (src dst : Buf) (hs : Reach src) (hd : Reach dst)
    (hl : dst.content.length ≤ src.content.length) :
    ∃ dst' src', getBuf dst src = (.ok dst', src') ∧
      dst'.content = src.content.take dst.content.length ∧ src'.content = src.content.drop dst.content.length ∧
      dst'.size = dst.size ∧ dst'.pos = dst.pos := by
  obtain ⟨d, p, h⟩ := hs.at
  obtain ⟨dd, pd, h'⟩ := hd.at
  have hle := h'.le
  rw [content_at h, content_at h', List.length_drop, List.length_drop] at hl
  by_cases hz : d.length - p < dd.length - pd
  · omega
  have hle2 := h.le
  obtain ⟨dst', h1, h2⟩ := getBuf_ok h h' (by omega)
  refine ⟨dst', _, h1, ?_, ?_, ?_, ?_⟩
  · rw [content_at h2, content_at h, content_at h', List.drop_left' (by simp; omega)]
    simp
  · rw [content_at (h.mvFw (k := dd.length - pd) (by omega)), content_at h, content_at h']
    simp
  · rw [h2.size, h'.size]; simp; omega
  · rw [h2.pos, h'.pos]

/-- Non-trivial instance of the hypotheses. -/
example : ∃ src dst : Buf, Reach src ∧ Reach dst ∧ 0 < dst.content.length ∧ dst.content.length ≤ src.content.length :=
  ⟨(match alloc 1 5 with | .ok b => b | .error _ => ⟨0, 0, []⟩),
   (match alloc 0 4 with | .ok b => b | .error _ => ⟨0, 0, []⟩),
   Reach.alloc 1 5 _ rfl, Reach.alloc 0 4 _ rfl, by decide, by decide⟩

end Cs.Buffer
