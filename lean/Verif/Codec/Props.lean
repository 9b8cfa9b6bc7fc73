import Verif.Codec.Lemmas

/-!
# Properties of the serialization code (C05 - C09)

Every statement has the form: serializing succeeds, and whenever a buffer `r` holds at its current position the bytes of
the serialized form followed by anything (`rest`), deserializing from `r` gives the original value and leaves `r`
positioned at `rest`. `Buf.content` are the bytes between position and end.
-/

namespace Cs.Codec
open Cs Cs.Buffer

/-- The endpoints the format can carry: non-empty, without NUL. -/
def SrvConf.Valid (c : SrvConf) : Prop := c.endpoint ≠ [] ∧ ∀ x ∈ c.endpoint, x ≠ 0

/-- Serialized size of one server record. -/
def SrvConf.encSize (c : SrvConf) : Nat := 4 + c.endpoint.length + 1
/-- Serialized size of a configuration. -/
def ClusterConf.encSize (c : ClusterConf) : Nat := 20 + (c.servers.map SrvConf.encSize).sum
/-- Serialized size of a snapshot descriptor. -/
def Snap.encSize (s : Snap) : Nat := 24 + s.conf.encSize
/-- Serialized size of a snapshot transfer request. -/
def SnapReq.encSize (r : SnapReq) : Nat := r.snap.encSize + 9 + r.data.content.length

theorem encSize_servers (l : List SrvConf) : (serversBytes l).length = (l.map SrvConf.encSize).sum := by
  induction l with
  | nil => rfl
  | cons c l ih =>
    have e : serversBytes (c :: l) = c.bytes ++ serversBytes l := rfl
    rw [e, List.length_append, ih, SrvConf.bytes_length]; rfl

theorem encSize_conf (c : ClusterConf) : c.bytes.length = c.encSize := by
  rw [ClusterConf.bytes_length, encSize_servers, ClusterConf.encSize]

theorem encSize_snap (s : Snap) : s.bytes.length = s.encSize := by
  rw [Snap.bytes_length, encSize_conf, Snap.encSize]; omega

theorem encSize_snapReq (s : SnapReq) : s.bytes.length = s.encSize := by
  rw [SnapReq.bytes_length, encSize_snap, SnapReq.encSize]

/-- From the helper form to the API form. -/
theorem api_form {α : Type} (de : BM α) (a : α) (bytes : List Byte) {b : Buf} (hb : Rd b [] bytes)
    (hde : ∀ {r pre rest}, Rd r pre (bytes ++ rest) → ∃ r', de r = (.ok a, r') ∧ Rd r' (pre ++ bytes) rest) :
    ∀ r rest, Reach r → r.content = b.content ++ rest → ∃ r', de r = (.ok a, r') ∧ Reach r' ∧ r'.content = rest := by
  intro r rest hr hc
  obtain ⟨pre, hp⟩ := rd_of_reach hr
  rw [hc, Rd.content hb] at hp
  obtain ⟨r', h1, h2⟩ := hde hp
  exact ⟨r', h1, Rd.reach h2, Rd.content h2⟩

/-- C05: server configurations survive serialization. -/
theorem C05_srv_config (junk : Byte) (c : SrvConf) (hv : c.Valid) (hs : c.encSize < 2 ^ 31) :
    ∃ b, c.serialize junk = .ok b ∧ Reach b ∧ b.pos = 0 ∧ b.size = c.encSize ∧
      ∀ r rest, Reach r → r.content = b.content ++ rest →
        ∃ r', SrvConf.deserialize r = (.ok c, r') ∧ Reach r' ∧ r'.content = rest := by
  have hl : c.bytes.length = c.encSize := SrvConf.bytes_length c
  obtain ⟨b, h1, h2⟩ := SrvConf.serialize_ok junk c (by rw [hl]; exact hs)
  exact ⟨b, h1, Rd.reach h2, (Rd.posz h2).1, by rw [(Rd.posz h2).2, hl],
    api_form _ c _ h2 (fun h => SrvConf.deserialize_ok c hv h)⟩

/-- C05 instance: the serialized form can be read back from the very buffer returned. -/
example : ∃ b, (SrvConf.serialize 0 ⟨0xffffffff, [116, 99, 112]⟩) = .ok b ∧
    (SrvConf.deserialize b).1 = .ok ⟨0xffffffff, [116, 99, 112]⟩ := by
  obtain ⟨b, h1, h2, _, _, h3⟩ := C05_srv_config 0 ⟨0xffffffff, [116, 99, 112]⟩
    (by simp [SrvConf.Valid]) (by decide)
  obtain ⟨r', h4, _⟩ := h3 b [] h2 (by simp)
  exact ⟨b, h1, by rw [h4]⟩

/-- The validity hypothesis of C05 is necessary: an empty endpoint is written without complaint, and reading it back
builds a `std::string` from a null pointer. -/
theorem C05_empty_endpoint (junk : Byte) (id : I32) :
    ∃ b, (SrvConf.serialize junk ⟨id, []⟩) = .ok b ∧ (SrvConf.deserialize b).1 = .error .ub := by
  obtain ⟨b, h1, h2⟩ := SrvConf.serialize_ok junk ⟨id, []⟩ (by rw [SrvConf.bytes_length]; simp)
  refine ⟨b, h1, ?_⟩
  simp only [SrvConf.bytes] at h2
  obtain ⟨r1, h3, w1⟩ := Rd.getInt id h2
  have hg := getStr_run w1
  have hd : nulRun (List.drop (([] : List Byte) ++ le4 id).length (([] : List Byte) ++ le4 id ++ ([] ++ [0]))) = 0 := by
    rw [List.drop_left]; rfl
  rw [hd, if_pos (Or.inr rfl)] at hg
  rw [SrvConf.deserialize, run_bind_ok h3, run_bind_ok hg]
  rfl

/-- C06: cluster configurations survive serialization. -/
theorem C06_cluster_config (junk : Byte) (c : ClusterConf) (hv : ∀ s ∈ c.servers, s.Valid) (hs : c.encSize < 2 ^ 31) :
    ∃ b, c.serialize junk = .ok b ∧ Reach b ∧ b.pos = 0 ∧ b.size = c.encSize ∧
      ∀ r rest, Reach r → r.content = b.content ++ rest →
        ∃ r', ClusterConf.deserialize r = (.ok c, r') ∧ Reach r' ∧ r'.content = rest := by
  obtain ⟨b, h1, h2⟩ := ClusterConf.serialize_ok junk c (by rw [encSize_conf]; exact hs)
  exact ⟨b, h1, Rd.reach h2, (Rd.posz h2).1, by rw [(Rd.posz h2).2, encSize_conf],
    api_form _ c _ h2 (fun h => ClusterConf.deserialize_ok c hv h)⟩

example : (∀ s ∈ [SrvConf.mk 1 [97], ⟨2, [98, 99]⟩, ⟨0xffffff00, [100]⟩], s.Valid) ∧
    (ClusterConf.mk 5 3 [⟨1, [97]⟩, ⟨2, [98, 99]⟩, ⟨0xffffff00, [100]⟩]).encSize < 2 ^ 31 := by
  simp [SrvConf.Valid, ClusterConf.encSize, SrvConf.encSize]

/-- C07: snapshot descriptors survive serialization. -/
theorem C07_snapshot (junk : Byte) (s : Snap) (hv : ∀ c ∈ s.conf.servers, c.Valid) (hs : s.encSize < 2 ^ 31) :
    ∃ b, s.serialize junk = .ok b ∧ Reach b ∧ b.pos = 0 ∧ b.size = s.encSize ∧
      ∀ r rest, Reach r → r.content = b.content ++ rest →
        ∃ r', Snap.deserialize r = (.ok s, r') ∧ Reach r' ∧ r'.content = rest := by
  obtain ⟨b, h1, h2⟩ := Snap.serialize_ok junk s (by rw [encSize_snap]; exact hs)
  exact ⟨b, h1, Rd.reach h2, (Rd.posz h2).1, by rw [(Rd.posz h2).2, encSize_snap],
    api_form _ s _ h2 (fun h => Snap.deserialize_ok s hv h)⟩

example : (∀ s ∈ (Snap.mk 7 2 100 ⟨5, 3, [⟨1, [97]⟩]⟩).conf.servers, s.Valid) ∧
    (Snap.mk 7 2 100 ⟨5, 3, [⟨1, [97]⟩]⟩).encSize < 2 ^ 31 := by
  simp [SrvConf.Valid, Snap.encSize, ClusterConf.encSize, SrvConf.encSize]

/-- C08: snapshot transfer requests survive serialization; the data buffer is compared by its content (what was between
position and end), and the received one is positioned at its start. -/
theorem C08_snapshot_sync_req (junk junk' : Byte) (q : SnapReq) (hd : Reach q.data)
    (hv : ∀ c ∈ q.snap.conf.servers, c.Valid) (hs : q.encSize < 2 ^ 31) :
    ∃ b, q.serialize junk = .ok b ∧ Reach b ∧ b.pos = 0 ∧ b.size = q.encSize ∧
      ∀ r, Reach r → r.content = b.content →
        ∃ q' r', SnapReq.deserialize junk' r = (.ok q', r') ∧ q'.snap = q.snap ∧ q'.offset = q.offset ∧
          q'.done = q.done ∧ q'.data.content = q.data.content ∧ q'.data.pos = 0 ∧ Reach q'.data := by
  obtain ⟨b, h1, h2⟩ := SnapReq.serialize_ok junk q hd (by rw [encSize_snapReq]; exact hs)
  refine ⟨b, h1, Rd.reach h2, (Rd.posz h2).1, by rw [(Rd.posz h2).2, encSize_snapReq], ?_⟩
  intro r hr hc
  obtain ⟨pre, hp⟩ := rd_of_reach hr
  rw [hc, Rd.content h2] at hp
  obtain ⟨q', r', h3, h4, h5, h6, h7⟩ := SnapReq.deserialize_ok junk' q hv hp
  exact ⟨q', r', h3, h4, h5, h6, Rd.content h7, (Rd.posz h7).1, Rd.reach h7⟩

/-- Instances of the hypotheses of C08: a partially consumed data buffer and an empty one. -/
example : ∃ q : SnapReq, Reach q.data ∧ q.data.pos = 1 ∧ q.data.content = [5, 5] ∧
    (∀ c ∈ q.snap.conf.servers, c.Valid) ∧ q.encSize < 2 ^ 31 := by
  refine ⟨⟨⟨7, 2, 100, ⟨5, 3, [⟨1, [97]⟩]⟩⟩, 0, (Op.call (.seek 1) (match alloc 5 3 with | .ok b => b | .error _ => ⟨0, 0, []⟩)).2,
    true⟩, Reach.op _ _ (Reach.alloc 5 3 _ rfl) (by intro s h; cases h), by decide, by decide, ?_, by decide⟩
  simp [SrvConf.Valid]

/-- C09: log entries survive serialization, whatever the position of the payload buffer was; the payload read back is the
whole payload and is positioned at its start. -/
theorem C09_log_entry (junk junk' : Byte) (e : LogEntry) (b0 : Buf) (he : e.buff = some b0) (hb : Reach b0)
    (hs : 9 + b0.size < 2 ^ 31) :
    ∃ b, e.serialize junk = .ok b ∧ Reach b ∧ b.pos = 0 ∧ b.size = 9 + b0.size ∧
      ∀ r, Reach r → r.content = b.content →
        ∃ e' r' b', LogEntry.deserialize junk' r = (.ok e', r') ∧ e'.term = e.term ∧ e'.vtype = e.vtype ∧
          e'.buff = some b' ∧ b'.data = b0.data ∧ b'.pos = 0 ∧ Reach b' := by
  have hsz := (C03_header_truthful b0 hb).1
  obtain ⟨b, h1, h2⟩ := LogEntry.serialize_ok junk e b0 he hb (by rw [← hsz]; exact hs)
  refine ⟨b, h1, Rd.reach h2, (Rd.posz h2).1, ?_, ?_⟩
  · rw [(Rd.posz h2).2, hsz]; simp; omega
  intro r hr hc
  obtain ⟨pre, hp⟩ := rd_of_reach hr
  rw [hc, Rd.content h2] at hp
  obtain ⟨e', r', h3, h4, h5, b', h6, h7⟩ := LogEntry.deserialize_ok junk' e.term e.vtype b0.data hp
  exact ⟨e', r', b', h3, h4, h5, h6, by rw [At.data h7]; rfl, (Rd.posz h7).1, Rd.reach h7⟩

/-- C09, companion: the term can be read from the serialized form without disturbing it. -/
theorem C09_term_in_buffer (junk : Byte) (e : LogEntry) (b0 : Buf) (he : e.buff = some b0) (hb : Reach b0)
    (hs : 9 + b0.size < 2 ^ 31) :
    ∃ b, e.serialize junk = .ok b ∧ ∃ b', termInBuffer b = (.ok e.term, b') ∧ b'.pos = 0 ∧ b'.data = b.data := by
  have hsz := (C03_header_truthful b0 hb).1
  obtain ⟨b, h1, h2⟩ := LogEntry.serialize_ok junk e b0 he hb (by rw [← hsz]; exact hs)
  obtain ⟨r1, h3, w1⟩ := Rd.getULong _ h2
  refine ⟨b, h1, _, by rw [termInBuffer, run_bind_ok h3, run_bind_ok (seek_run w1 0)]; rfl, ?_, ?_⟩
  · have := (seek_at w1 0).pos; simpa using this
  · rw [setPos_data, At.data w1, At.data h2]; simp

/-- Instance of the hypotheses of C09. -/
example : ∃ (e : LogEntry) (b0 : Buf), e.buff = some b0 ∧ Reach b0 ∧ b0.size = 3 ∧ 9 + b0.size < 2 ^ 31 :=
  ⟨⟨4, 1, some (match alloc 5 3 with | .ok b => b | .error _ => ⟨0, 0, []⟩)⟩, _, rfl, Reach.alloc 5 3 _ rfl, by decide,
   by decide⟩

end Cs.Codec
