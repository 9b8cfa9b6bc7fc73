import Verif.Codec.Model
import Verif.Buffer.Props

/-! # Helper lemmas for the serialization round trips -/

namespace Cs.Codec
open Cs Cs.Buffer

theorem rd_of_reach {r : Buf} (h : Reach r) : ∃ pre, Rd r pre r.content := by
  obtain ⟨d, p, h⟩ := h.at
  have hle := h.le
  have : (d.take p).length = p := by rw [List.length_take]; omega
  refine ⟨d.take p, ?_⟩
  rw [content_at h, Rd, List.take_append_drop, this]; exact h

theorem Rd.content {r : Buf} {pre rest} (h : Rd r pre rest) : r.content = rest := by
  rw [content_at h]; simp

theorem Rd.reach {r : Buf} {pre rest} (h : Rd r pre rest) : Reach r := At.reach h

theorem Rd.posz {r : Buf} {rest} (h : Rd r [] rest) : r.pos = 0 ∧ r.size = rest.length := ⟨At.pos h, At.size h⟩

/-! ## Byte images -/

def SrvConf.bytes (c : SrvConf) : List Byte := le4 c.id ++ (c.endpoint ++ [0])

def serversBytes (l : List SrvConf) : List Byte := (l.map SrvConf.bytes).flatten

def ClusterConf.bytes (c : ClusterConf) : List Byte :=
  le8 c.logIdx ++ (le8 c.prevLogIdx ++ (le4 (BitVec.ofNat 32 c.servers.length) ++ serversBytes c.servers))

def Snap.bytes (s : Snap) : List Byte := le8 s.lastIdx ++ (le8 s.lastTerm ++ (le8 s.size ++ s.conf.bytes))

def SrvConf.Ok (c : SrvConf) : Prop := c.endpoint ≠ [] ∧ ∀ x ∈ c.endpoint, x ≠ 0

theorem SrvConf.bytes_length (c : SrvConf) : c.bytes.length = 4 + c.endpoint.length + 1 := by
  simp [SrvConf.bytes]; omega

/-! ## Serialization produces the byte image -/

theorem SrvConf.serialize_ok (junk : Byte) (c : SrvConf) (h : c.bytes.length < 2 ^ 31) :
    ∃ b, c.serialize junk = .ok b ∧ Rd b [] c.bytes := by
  rw [bytes_length] at h
  obtain ⟨b0, h0, w0⟩ := Wr.alloc junk h
  obtain ⟨b1, h1, w1⟩ := w0.putInt c.id (by omega)
  obtain ⟨b2, h2, w2⟩ := w1.putStr c.endpoint (by omega)
  have e : 4 + c.endpoint.length + 1 - 4 - (c.endpoint.length + 1) = 0 := by omega
  rw [e] at w2
  obtain ⟨b3, h3, w3⟩ := w2.rewind
  refine ⟨b3, ?_, by simpa [SrvConf.bytes] using w3⟩
  rw [SrvConf.serialize, h0, ok_bind, finish_ok]
  rw [run_bind_ok h1, run_bind_ok h2, h3]

/-- `bs` are buffers holding the byte images of `l`, in order. -/
inductive Images : List Buf → List SrvConf → Prop
  | nil : Images [] []
  | cons {b c bs l} : Rd b [] (SrvConf.bytes c) → Images bs l → Images (b :: bs) (c :: l)

theorem serializeServers_ok (junk : Byte) : ∀ (l : List SrvConf), (∀ c ∈ l, c.bytes.length < 2 ^ 31) →
    ∃ bs, serializeServers junk l = .ok bs ∧ Images bs l
  | [], _ => ⟨[], rfl, .nil⟩
  | c :: l, h => by
    simp only [List.mem_cons, forall_eq_or_imp] at h
    obtain ⟨b, h1, h2⟩ := SrvConf.serialize_ok junk c h.1
    obtain ⟨bs, h3, h4⟩ := serializeServers_ok junk l h.2
    refine ⟨b :: bs, ?_, .cons h2 h4⟩
    rw [serializeServers, h1, ok_bind, h3, ok_bind]; rfl

theorem sizes_sum : ∀ {bs : List Buf} {l : List SrvConf}, Images bs l →
    (bs.map Buf.size).sum = (serversBytes l).length
  | _, _, .nil => rfl
  | _, _, .cons h hs => by
    simp only [List.map_cons, List.sum_cons, serversBytes, List.flatten_cons, List.length_append, (Rd.posz h).2]
    rw [sizes_sum hs]; rfl

theorem putBufs_ok : ∀ {bs : List Buf} {l : List SrvConf}, Images bs l →
    ∀ {b done k}, Wr b done k → (serversBytes l).length ≤ k →
    ∃ b', putBufs bs b = (.ok (), b') ∧ Wr b' (done ++ serversBytes l) (k - (serversBytes l).length)
  | _, _, .nil, b, _, _, w, _ => ⟨b, rfl, by simpa [serversBytes] using w⟩
  | _, _, .cons (c := c) (l := l) h hs, b, done, k, w, hk => by
    have e : serversBytes (c :: l) = c.bytes ++ serversBytes l := rfl
    rw [e, List.length_append] at hk
    obtain ⟨b1, h1, w1⟩ := w.putBuf h (by omega)
    obtain ⟨b2, h2, w2⟩ := putBufs_ok hs w1 (by omega)
    refine ⟨b2, ?_, ?_⟩
    · rw [putBufs, run_bind_ok h1, h2]
    · rw [e, List.length_append, ← List.append_assoc, Nat.sub_add_eq]; exact w2

theorem mem_serversBytes {l : List SrvConf} {c : SrvConf} (h : c ∈ l) : c.bytes.length ≤ (serversBytes l).length := by
  induction l with
  | nil => cases h
  | cons x l ih =>
    have e : serversBytes (x :: l) = x.bytes ++ serversBytes l := rfl
    rw [e, List.length_append]
    rcases List.mem_cons.mp h with rfl | h
    · omega
    · have := ih h; omega

theorem ClusterConf.bytes_length (c : ClusterConf) : c.bytes.length = 20 + (serversBytes c.servers).length := by
  simp [ClusterConf.bytes]; omega

theorem ClusterConf.serialize_ok (junk : Byte) (c : ClusterConf) (h : c.bytes.length < 2 ^ 31) :
    ∃ b, c.serialize junk = .ok b ∧ Rd b [] c.bytes := by
  rw [bytes_length] at h
  obtain ⟨bs, hb, hf⟩ := serializeServers_ok junk c.servers (fun s hs => by have := mem_serversBytes hs; omega)
  have hsz := sizes_sum hf
  obtain ⟨b0, h0, w0⟩ := Wr.alloc junk h
  obtain ⟨b1, h1, w1⟩ := w0.putULong c.logIdx (by omega)
  obtain ⟨b2, h2, w2⟩ := w1.putULong c.prevLogIdx (by omega)
  obtain ⟨b3, h3, w3⟩ := w2.putInt (BitVec.ofNat 32 c.servers.length) (by omega)
  obtain ⟨b4, h4, w4⟩ := putBufs_ok hf w3 (by omega)
  have e : 20 + (serversBytes c.servers).length - 8 - 8 - 4 - (serversBytes c.servers).length = 0 := by omega
  rw [e] at w4
  obtain ⟨b5, h5, w5⟩ := w4.rewind
  refine ⟨b5, ?_, by simpa [ClusterConf.bytes] using w5⟩
  rw [ClusterConf.serialize, hb, ok_bind]
  simp only [hsz]
  rw [h0, ok_bind, finish_ok]
  rw [run_bind_ok h1, run_bind_ok h2, run_bind_ok h3, run_bind_ok h4, h5]

theorem Snap.bytes_length (s : Snap) : s.bytes.length = s.conf.bytes.length + 24 := by
  simp [Snap.bytes]; omega

theorem Snap.serialize_ok (junk : Byte) (s : Snap) (h : s.bytes.length < 2 ^ 31) :
    ∃ b, s.serialize junk = .ok b ∧ Rd b [] s.bytes := by
  rw [bytes_length] at h
  obtain ⟨cb, hc, rc⟩ := ClusterConf.serialize_ok junk s.conf (by omega)
  obtain ⟨b0, h0, w0⟩ := Wr.alloc junk h
  obtain ⟨b1, h1, w1⟩ := w0.putULong s.lastIdx (by omega)
  obtain ⟨b2, h2, w2⟩ := w1.putULong s.lastTerm (by omega)
  obtain ⟨b3, h3, w3⟩ := w2.putULong s.size (by omega)
  obtain ⟨b4, h4, w4⟩ := w3.putBuf rc (by omega)
  have e : s.conf.bytes.length + 24 - 8 - 8 - 8 - s.conf.bytes.length = 0 := by omega
  rw [e] at w4
  obtain ⟨b5, h5, w5⟩ := w4.rewind
  refine ⟨b5, ?_, by simpa [Snap.bytes] using w5⟩
  rw [Snap.serialize, hc, ok_bind, (Rd.posz rc).2]
  rw [h0, ok_bind, finish_ok]
  rw [run_bind_ok h1, run_bind_ok h2, run_bind_ok h3, run_bind_ok h4, h5]

def SnapReq.bytes (r : SnapReq) : List Byte :=
  r.snap.bytes ++ (le8 r.offset ++ ((if r.done then 1 else 0) :: r.data.content))

theorem SnapReq.bytes_length (r : SnapReq) :
    r.bytes.length = r.snap.bytes.length + 8 + 1 + r.data.content.length := by
  simp [SnapReq.bytes]; omega

theorem SnapReq.serialize_ok (junk : Byte) (r : SnapReq) (hr : Reach r.data) (h : r.bytes.length < 2 ^ 31) :
    ∃ b, r.serialize junk = .ok b ∧ Rd b [] r.bytes := by
  rw [bytes_length] at h
  obtain ⟨pre, hd⟩ := rd_of_reach hr
  obtain ⟨sb, hs, rs⟩ := Snap.serialize_ok junk r.snap (by omega)
  obtain ⟨b0, h0, w0⟩ := Wr.alloc junk h
  obtain ⟨b1, h1, w1⟩ := w0.putBuf rs (by omega)
  obtain ⟨b2, h2, w2⟩ := w1.putULong r.offset (by omega)
  obtain ⟨b3, h3, w3⟩ := w2.putByte (if r.done then 1 else 0) (by omega)
  obtain ⟨b4, h4, w4⟩ := w3.putBuf hd (by omega)
  have e : r.snap.bytes.length + 8 + 1 + r.data.content.length - r.snap.bytes.length - 8 - 1 - r.data.content.length = 0 := by
    omega
  rw [e] at w4
  obtain ⟨b5, h5, w5⟩ := w4.rewind
  refine ⟨b5, ?_, by simpa [SnapReq.bytes] using w5⟩
  rw [SnapReq.serialize, hs, ok_bind, (Rd.posz rs).2, hd.avail, h0, ok_bind, finish_ok]
  rw [run_bind_ok h1, run_bind_ok h2, run_bind_ok h3, run_bind_ok h4, h5]

/-! ## Reading the byte image back -/

theorem SrvConf.deserialize_ok (c : SrvConf) (hc : c.Ok) {r pre rest} (h : Rd r pre (c.bytes ++ rest)) :
    ∃ r', SrvConf.deserialize r = (.ok c, r') ∧ Rd r' (pre ++ c.bytes) rest := by
  simp only [SrvConf.bytes, List.append_assoc] at h
  obtain ⟨r1, h1, w1⟩ := Rd.getInt c.id h
  obtain ⟨r2, h2, w2⟩ := Rd.getStr c.endpoint hc.1 hc.2 w1
  refine ⟨r2, ?_, by simpa [SrvConf.bytes] using w2⟩
  rw [SrvConf.deserialize, run_bind_ok h1, run_bind_ok h2]; rfl

theorem deserializeServers_ok : ∀ (l : List SrvConf), (∀ c ∈ l, c.Ok) → ∀ {r pre rest},
    Rd r pre (serversBytes l ++ rest) →
    ∃ r', deserializeServers l.length r = (.ok l, r') ∧ Rd r' (pre ++ serversBytes l) rest
  | [], _, r, _, _, h => ⟨r, rfl, by simpa [serversBytes] using h⟩
  | c :: l, hv, r, pre, rest, h => by
    simp only [List.mem_cons, forall_eq_or_imp] at hv
    have e : serversBytes (c :: l) = c.bytes ++ serversBytes l := rfl
    rw [e, List.append_assoc] at h
    obtain ⟨r1, h1, w1⟩ := SrvConf.deserialize_ok c hv.1 h
    obtain ⟨r2, h2, w2⟩ := deserializeServers_ok l hv.2 w1
    refine ⟨r2, ?_, by rw [e, ← List.append_assoc]; exact w2⟩
    rw [List.length_cons, deserializeServers, run_bind_ok h1, run_bind_ok h2]; rfl

theorem servers_length_le (l : List SrvConf) : l.length ≤ (serversBytes l).length := by
  induction l with
  | nil => simp
  | cons c l ih =>
    have e : serversBytes (c :: l) = c.bytes ++ serversBytes l := rfl
    rw [e, List.length_append, List.length_cons, SrvConf.bytes_length]; omega

theorem cnt_toNat (n : Nat) (h : n < 2 ^ 31) : (BitVec.ofNat 32 n).toInt.toNat = n := by
  have : (BitVec.ofNat 32 n).toInt = n := by
    rw [BitVec.toInt_eq_toNat_of_lt] <;> rw [BitVec.toNat_ofNat] <;> omega
  rw [this]; rfl

theorem ClusterConf.deserialize_ok (c : ClusterConf) (hc : ∀ s ∈ c.servers, s.Ok) {r pre rest}
    (h : Rd r pre (c.bytes ++ rest)) :
    ∃ r', ClusterConf.deserialize r = (.ok c, r') ∧ Rd r' (pre ++ c.bytes) rest := by
  have hlt := Rd.lt h
  have hn : c.servers.length < 2 ^ 31 := by
    have := servers_length_le c.servers
    rw [List.length_append, ClusterConf.bytes_length] at hlt; omega
  simp only [ClusterConf.bytes, List.append_assoc] at h
  obtain ⟨r1, h1, w1⟩ := Rd.getULong _ h
  obtain ⟨r2, h2, w2⟩ := Rd.getULong _ w1
  obtain ⟨r3, h3, w3⟩ := Rd.getInt _ w2
  obtain ⟨r4, h4, w4⟩ := deserializeServers_ok c.servers hc w3
  refine ⟨r4, ?_, by simpa [ClusterConf.bytes] using w4⟩
  rw [ClusterConf.deserialize, run_bind_ok h1, run_bind_ok h2, run_bind_ok h3, cnt_toNat _ hn, run_bind_ok h4]; rfl

theorem Snap.deserialize_ok (s : Snap) (hc : ∀ c ∈ s.conf.servers, c.Ok) {r pre rest}
    (h : Rd r pre (s.bytes ++ rest)) :
    ∃ r', Snap.deserialize r = (.ok s, r') ∧ Rd r' (pre ++ s.bytes) rest := by
  simp only [Snap.bytes, List.append_assoc] at h
  obtain ⟨r1, h1, w1⟩ := Rd.getULong _ h
  obtain ⟨r2, h2, w2⟩ := Rd.getULong _ w1
  obtain ⟨r3, h3, w3⟩ := Rd.getULong _ w2
  obtain ⟨r4, h4, w4⟩ := ClusterConf.deserialize_ok s.conf hc w3
  refine ⟨r4, ?_, by simpa [Snap.bytes] using w4⟩
  rw [Snap.deserialize, run_bind_ok h1, run_bind_ok h2, run_bind_ok h3, run_bind_ok h4]; rfl

theorem Rd.fillAll {b : Buf} {rest l : List Byte} (h : Rd b [] rest) (hl : l.length = rest.length) :
    Rd { b with data := l } [] l := by
  have := At.withData h (d' := l) (by simpa using hl)
  simpa [Rd] using this

theorem SnapReq.deserialize_ok (junk : Byte) (q : SnapReq) (hc : ∀ c ∈ q.snap.conf.servers, c.Ok) {r pre}
    (h : Rd r pre q.bytes) :
    ∃ q' r', SnapReq.deserialize junk r = (.ok q', r') ∧ q'.snap = q.snap ∧ q'.offset = q.offset ∧ q'.done = q.done ∧
      Rd q'.data [] q.data.content := by
  have hlt := h.lt
  simp only [SnapReq.bytes] at h
  obtain ⟨r1, h1, w1⟩ := Snap.deserialize_ok q.snap hc h
  obtain ⟨r2, h2, w2⟩ := Rd.getULong _ w1
  obtain ⟨r3, h3, w3⟩ := Rd.getByte w2
  have hdone : ((if q.done then (1 : Byte) else 0) == 1) = q.done := by cases q.done <;> rfl
  have hpos : r3.pos < r3.size ↔ q.data.content ≠ [] := by
    rw [At.pos w3, At.size w3, List.length_append (bs := q.data.content), ← List.length_pos_iff]; omega
  by_cases hne : q.data.content = []
  · obtain ⟨b0, h0, w0⟩ := Rd.alloc junk (n := 0) (by decide)
    refine ⟨{ snap := q.snap, offset := q.offset, data := b0, done := q.done }, r3, ?_, rfl, rfl, rfl, ?_⟩
    · rw [SnapReq.deserialize, run_bind_ok h1, run_bind_ok h2, run_bind_ok h3, run_bind_ok (run_get r3), run_ite,
        if_neg (by rw [hpos]; simpa using hne), h0, run_bind_ok (run_liftExcept_ok _ _), hdone]
      rfl
    · rw [hne]; exact w0
  · have hlen : q.data.content.length < 2 ^ 31 := by rw [SnapReq.bytes_length] at hlt; omega
    obtain ⟨b0, h0, w0⟩ := Rd.alloc junk hlen
    have hrd := readAt_ok w3 (off := 0) (len := q.data.content.length) (by simp; omega)
    simp only [Nat.add_zero, List.drop_left, List.take_length] at hrd
    refine ⟨{ snap := q.snap, offset := q.offset, data := { b0 with data := q.data.content }, done := q.done }, r3, ?_,
      rfl, rfl, rfl, Rd.fillAll w0 (by simp)⟩
    rw [SnapReq.deserialize, run_bind_ok h1, run_bind_ok h2, run_bind_ok h3, run_bind_ok (run_get r3), run_ite,
        if_pos (by rw [hpos]; exact hne), Rd.avail w3, run_bind_ok hrd, h0, run_bind_ok (run_liftExcept_ok _ _), hdone]
    rfl

/-! ## Log entries -/

/-- All bytes of the payload buffer, wherever it is positioned. -/
def LogEntry.payload (e : LogEntry) : Option (List Byte) := e.buff.map (·.data)

theorem LogEntry.serialize_ok (junk : Byte) (e : LogEntry) (b0 : Buf) (he : e.buff = some b0) (hb : Reach b0)
    (h : 9 + b0.data.length < 2 ^ 31) :
    ∃ b, e.serialize junk = .ok b ∧ Rd b [] (le8 e.term ++ (e.vtype :: b0.data)) := by
  obtain ⟨d, p, ha⟩ := hb.at
  have hr : Rd (b0.setPos (min 0 d.length)) [] d := by simpa [Rd] using seek_at ha 0
  have hd : b0.data = d := ha.data
  rw [hd] at h
  obtain ⟨c0, h0, w0⟩ := Wr.alloc junk (n := 8 + 1 + d.length) (by omega)
  obtain ⟨c1, h1, w1⟩ := w0.putULong e.term (by omega)
  obtain ⟨c2, h2, w2⟩ := w1.putByte e.vtype (by omega)
  obtain ⟨c3, h3, w3⟩ := w2.putBuf hr (by omega)
  have hz : 8 + 1 + d.length - 8 - 1 - d.length = 0 := by omega
  rw [hz] at w3
  obtain ⟨c4, h4, w4⟩ := w3.rewind
  refine ⟨c4, ?_, by simpa [hd] using w4⟩
  rw [LogEntry.serialize, he]
  simp only
  rw [finish_ok (seek_run ha 0), ok_bind, (Rd.posz hr).2, h0, ok_bind, finish_ok]
  rw [run_bind_ok h1, run_bind_ok h2, run_bind_ok h3, h4]

theorem LogEntry.deserialize_ok (junk : Byte) (t : U64) (v : Byte) (d : List Byte) {r pre}
    (h : Rd r pre (le8 t ++ (v :: d))) :
    ∃ e r', LogEntry.deserialize junk r = (.ok e, r') ∧ e.term = t ∧ e.vtype = v ∧ ∃ b, e.buff = some b ∧ Rd b [] d := by
  obtain ⟨r1, h1, w1⟩ := Rd.getULong _ h
  obtain ⟨r2, h2, w2⟩ := Rd.getByte w1
  obtain ⟨b, h3, w3⟩ := Rd.copy junk w2
  refine ⟨{ term := t, vtype := v, buff := some b }, r2, ?_, rfl, rfl, b, rfl, w3⟩
  rw [LogEntry.deserialize, run_bind_ok h1, run_bind_ok h2, run_bind_ok (run_get r2), h3,
    run_bind_ok (run_liftExcept_ok _ _)]
  rfl

end Cs.Codec
