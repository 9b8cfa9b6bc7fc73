import Verif.Rpc.Lemmas

/-!
# Properties of the RPC frames (C10 - C13)

A frame is what `encodeReq` produces. `Req.view` and `LogEntry.view` are what a reader of a request can observe.
-/

namespace Cs.Rpc
open Cs Cs.Buffer Cs.Codec

/-! ## Specification vocabulary -/

/-- What can be observed of a log entry: term, type, payload bytes. -/
def view (e : LogEntry) : U64 × Byte × Option (List Byte) := (e.term, e.vtype, e.buff.map (·.data))

/-- What can be observed of a request. -/
def Req.view (r : Req) : Byte × I32 × I32 × U64 × U64 × U64 × U64 × List (U64 × Byte × Option (List Byte)) :=
  (r.type, r.src, r.dst, r.term, r.lastLogTerm, r.lastLogIdx, r.commitIdx, r.entries.map Rpc.view)

/-- Requests a server can send: every entry has a payload buffer. -/
def Req.Valid (r : Req) : Prop := ∀ e ∈ r.entries, ∃ b, e.buff = some b ∧ Reach b

/-- Bytes needed by one entry: 8 for the term, 1 for the type, 4 for the length, and the payload. -/
def entrySize (e : LogEntry) : Nat := 13 + (match e.buff with | some b => b.data.length | none => 0)

/-- Bytes of log data of a request. -/
def Req.dataSize (r : Req) : Nat := (r.entries.map entrySize).sum

/-- Process up to `k` frames of a connection: what the handler gets and the unread bytes. -/
def serve (junk : Byte) : Nat → Session → List Byte → List Req × List Byte
  | 0, _, input => ([], input)
  | k + 1, s, input =>
    match receive junk s input with
    | .request r s' rest => ((r :: (serve junk k s' rest).1), (serve junk k s' rest).2)
    | _ => ([], input)

/-! ## Bridges -/

theorem views_exist : ∀ {es : List LogEntry}, (∀ e ∈ es, ∃ b, e.buff = some b ∧ Reach b) →
    ∃ vs, HasViews es vs ∧ (viewsBytes vs).length = (es.map entrySize).sum
  | [], _ => ⟨[], .nil, rfl⟩
  | e :: es, h => by
    obtain ⟨b, hb, hr⟩ := h e (by simp)
    obtain ⟨vs, h1, h2⟩ := views_exist (es := es) (fun e he => h e (List.mem_cons_of_mem _ he))
    refine ⟨(e.term, e.vtype, b.data) :: vs, .cons ⟨rfl, rfl, b, hb, hr, rfl⟩ h1, ?_⟩
    rw [viewsBytes_cons, List.length_append, h2, List.map_cons, List.sum_cons]
    have : (EView.bytes (e.term, e.vtype, b.data)).length = 13 + b.data.length := entryBytes_length _ _ _
    rw [this, entrySize, hb]

theorem HasViews.view_eq : ∀ {es vs}, HasViews es vs → es.map Rpc.view = vs.map fun v => (v.1, v.2.1, some v.2.2)
  | _, _, .nil => rfl
  | _, _, .cons ⟨h1, h2, b, h3, _, h4⟩ hs => by
    rw [List.map_cons, List.map_cons, hs.view_eq, Rpc.view, h1, h2, h3, Option.map_some, h4]

theorem HasViews.valid : ∀ {es vs}, HasViews es vs → ∀ e ∈ es, ∃ b, e.buff = some b ∧ Reach b
  | _, _, .nil => by simp
  | _, _, .cons ⟨_, _, b, h3, h4, _⟩ hs => by
    intro e he
    rcases List.mem_cons.mp he with rfl | he
    · exact ⟨b, h3, h4⟩
    · exact hs.valid e he

theorem new_ready (junk : Byte) : ∃ s, Session.new junk = .ok s ∧ Ready s := by
  obtain ⟨ld, h1, _⟩ := Rd.alloc junk (n := 0) (by decide)
  obtain ⟨h, h2, w⟩ := Rd.alloc junk (n := reqHeaderSize) (by decide)
  refine ⟨⟨h, ld⟩, ?_, List.replicate reqHeaderSize junk, List.length_replicate, ?_⟩
  · rw [Session.new, h1, ok_bind, h2, ok_bind]; rfl
  · simpa [Rd] using w

/-! ## C10 -/

/-- C10, one frame on a session ready for it (helper for C10 and C13). -/
theorem frame_roundtrip (junk junk' : Byte) (r : Req) (hv : r.Valid) (hs : r.dataSize ≤ 0x1000000) :
    ∃ b, encodeReq junk r = .ok b ∧ b.content.length = 45 + r.dataSize ∧
      ∀ s rest, Ready s → ∃ r' s', receive junk' s (b.content ++ rest) = .request r' s' rest ∧ r'.view = r.view ∧
        r'.Valid ∧ (∀ e ∈ r'.entries, ∃ c, e.buff = some c ∧ c.pos = 0) ∧ Ready s' := by
  obtain ⟨vs, h1, h2⟩ := views_exist hv
  have h3 : (viewsBytes vs).length ≤ 0x1000000 := by rw [h2]; exact hs
  obtain ⟨b, h4, h5⟩ := encodeReq_ok junk r h1 (by omega)
  refine ⟨b, h4, ?_, ?_⟩
  · rw [Rd.content h5, List.length_append, headBytes_length, h2]; rfl
  intro s rest hs
  obtain ⟨es, s', g1, g2, g3, g4⟩ := receive_ok junk' s hs r vs h3 rest
  refine ⟨{ r with entries := es }, s', by rw [Rd.content h5]; exact g1, ?_, g2.valid, g4, g3⟩
  simp only [Req.view, g2.view_eq, h1.view_eq]

/-- C10: a request with at most 16 MiB of log data arrives as sent on a new connection, whatever follows it there; the
received payload buffers are positioned at their start. -/
theorem C10_request (junk junk' : Byte) (r : Req) (hv : r.Valid) (hs : r.dataSize ≤ 0x1000000) (rest : List Byte) :
    ∃ b s, encodeReq junk r = .ok b ∧ Session.new junk' = .ok s ∧
      ∃ r' s', receive junk' s (b.content ++ rest) = .request r' s' rest ∧ r'.view = r.view ∧
        (∀ e ∈ r'.entries, ∃ c, e.buff = some c ∧ c.pos = 0) := by
  obtain ⟨b, h1, _, h2⟩ := frame_roundtrip junk junk' r hv hs
  obtain ⟨s, h3, h4⟩ := new_ready junk'
  obtain ⟨r', s', h5, h6, _, h7, _⟩ := h2 s rest h4
  exact ⟨b, s, h1, h3, r', s', h5, h6, h7⟩

/-- The limit of C10 is sharp: the sender builds a frame with more log data without complaint, and the receiver closes the
connection. -/
theorem C10_limit (junk junk' : Byte) (r : Req) (hv : r.Valid) (h1 : 0x1000000 < r.dataSize)
    (h2 : 45 + r.dataSize < 2 ^ 31) (rest : List Byte) :
    ∃ b s, encodeReq junk r = .ok b ∧ Session.new junk' = .ok s ∧ receive junk' s (b.content ++ rest) = .closed := by
  obtain ⟨vs, g1, g2⟩ := views_exist hv
  have g3 : (viewsBytes vs).length = r.dataSize := g2
  obtain ⟨b, g4, g5⟩ := encodeReq_ok junk r g1 (by omega)
  obtain ⟨s, g6, g7⟩ := new_ready junk'
  refine ⟨b, s, g4, g6, ?_⟩
  rw [Rd.content g5, List.append_assoc]
  apply receive_bad_size junk' s g7
  rw [ofNat_toInt _ (by omega)]
  omega

/-- Instance of the hypotheses of C10 with two entries, one with an empty payload. -/
def sampleReq : Req :=
  let mk := fun n => match alloc 5 n with | .ok b => b | .error _ => ⟨0, 0, []⟩
  ⟨3, 1, 0xffffffff, 9, 8, 7, 6, [⟨9, 1, some (mk 3)⟩, ⟨8, 2, some (mk 0)⟩]⟩

theorem sampleReq_ok : sampleReq.Valid ∧ sampleReq.dataSize = 29 := by
  refine ⟨?_, by decide⟩
  intro e he
  simp only [sampleReq, List.mem_cons, List.not_mem_nil, or_false] at he
  rcases he with rfl | rfl
  · exact ⟨_, rfl, Reach.alloc 5 3 _ rfl⟩
  · exact ⟨_, rfl, Reach.alloc 5 0 _ rfl⟩

example : ∃ b s, encodeReq 0 sampleReq = .ok b ∧ Session.new 0 = .ok s ∧
      ∃ r' s', receive 0 s (b.content ++ [1, 2]) = .request r' s' [1, 2] ∧ r'.view = sampleReq.view ∧
        (∀ e ∈ r'.entries, ∃ c, e.buff = some c ∧ c.pos = 0) :=
  C10_request 0 0 sampleReq sampleReq_ok.1 (by rw [sampleReq_ok.2]; decide) [1, 2]

/-! ## C11 -/

/-- C11: every response arrives as sent. The client reads exactly 26 bytes into a buffer of that size (`b'`). -/
theorem C11_response (junk : Byte) (r : Resp) :
    ∃ b, encodeResp junk r = .ok b ∧ b.content.length = 26 ∧
      ∀ b', Reach b' → b'.content = b.content → ∃ b'', parseResp b' = (.ok r, b'') := by
  obtain ⟨b0, h0, w0⟩ := Wr.alloc junk (n := 26) (by decide)
  obtain ⟨b1, h1, w1⟩ := w0.putByte r.type (by omega)
  obtain ⟨b2, h2, w2⟩ := w1.putInt r.src (by omega)
  obtain ⟨b3, h3, w3⟩ := w2.putInt r.dst (by omega)
  obtain ⟨b4, h4, w4⟩ := w3.putULong r.term (by omega)
  obtain ⟨b5, h5, w5⟩ := w4.putULong r.nextIdx (by omega)
  obtain ⟨b6, h6, w6⟩ := w5.putByte (if r.accepted then 1 else 0) (by omega)
  obtain ⟨b7, h7, w7⟩ := w6.rewind
  refine ⟨b7, ?_, ?_, ?_⟩
  · rw [encodeResp, show respHeaderSize = 26 by rfl, h0, ok_bind, finish_ok]
    rw [run_bind_ok h1, run_bind_ok h2, run_bind_ok h3, run_bind_ok h4, run_bind_ok h5, run_bind_ok h6, h7]
  · rw [Rd.content w7]; simp
  intro b' hr hc
  obtain ⟨pre, hp⟩ := rd_of_reach hr
  rw [hc, Rd.content w7] at hp
  have hp' : Rd b' pre (r.type :: (le4 r.src ++ (le4 r.dst ++ (le8 r.term ++ (le8 r.nextIdx ++
      ((if r.accepted then (1 : Byte) else 0) :: [])))))) := by
    simpa using hp
  obtain ⟨c1, g1, v1⟩ := Rd.getByte hp'
  obtain ⟨c2, g2, v2⟩ := Rd.getInt _ v1
  obtain ⟨c3, g3, v3⟩ := Rd.getInt _ v2
  obtain ⟨c4, g4, v4⟩ := Rd.getULong _ v3
  obtain ⟨c5, g5, v5⟩ := Rd.getULong _ v4
  obtain ⟨c6, g6, v6⟩ := Rd.getByte v5
  refine ⟨c6, ?_⟩
  rw [parseResp, run_bind_ok g1, run_bind_ok g2, run_bind_ok g3, run_bind_ok g4, run_bind_ok g5, run_bind_ok g6]
  obtain ⟨t, a, b, c, d, acc⟩ := r
  cases acc <;> rfl

example : ∃ b, encodeResp 0 ⟨2, 0xffffffff, 3, 4, 5, true⟩ = .ok b ∧
    ∀ b', Reach b' → b'.content = b.content → ∃ b'', parseResp b' = (.ok ⟨2, 0xffffffff, 3, 4, 5, true⟩, b'') := by
  obtain ⟨b, h1, _, h2⟩ := C11_response 0 ⟨2, 0xffffffff, 3, 4, 5, true⟩
  exact ⟨b, h1, h2⟩

/-! ## C12 -/

/-- C12, the part that holds. On a session ready for a frame and for every input: either fewer than 45 bytes arrived; or
the first 45 bytes are a header announcing `n` bytes of log data, and
* a negative `n`, or one above 16 MiB, closes the connection, whatever follows;
* otherwise nothing happens before `n` bytes arrived, and then exactly those `n` bytes `D` decide: a request results only
  when `D` is a sequence of complete entries, and it consists of these entries;
* the connection is closed when `D` is `Malformed` (ends inside an entry header or has a negative length);
* the only other case is an entry whose announced length exceeds what is left of `D` (`Overrun`).
Missing: in the `Overrun` case the receiver reads outside the frame, see `C12_overrun_reads_outside`. -/
theorem C12_frames_partial (junk : Byte) (s : Session) (hs : Ready s) (input : List Byte) :
    (input.length < 45 ∧ receive junk s input = .incomplete) ∨
    ∃ (r : Req) (n : I32) (rest : List Byte), input = headBytes r n ++ rest ∧
      ((n.toInt < 0 ∨ n.toInt > 0x1000000) → receive junk s input = .closed) ∧
      (¬ (n.toInt < 0 ∨ n.toInt > 0x1000000) →
        (rest.length < n.toInt.toNat ∧ receive junk s input = .incomplete) ∨
        (∃ vs r' s', rest.take n.toInt.toNat = viewsBytes vs ∧
          receive junk s input = .request r' s' (rest.drop n.toInt.toNat) ∧
          r'.view = (r.type, r.src, r.dst, r.term, r.lastLogTerm, r.lastLogIdx, r.commitIdx,
            vs.map fun v => (v.1, v.2.1, some v.2.2)) ∧ Ready s') ∨
        (Malformed (rest.take n.toInt.toNat) ∧ receive junk s input = .closed) ∨
        Overrun (rest.take n.toInt.toNat)) := by
  by_cases hl : input.length < 45
  · exact .inl ⟨hl, by rw [receive, show reqHeaderSize = 45 by rfl, if_pos hl]⟩
  right
  obtain ⟨H, rest, rfl, hH⟩ := take_drop_exists input 45 (by omega)
  obtain ⟨r, n, _, rfl⟩ := header_exists H hH
  refine ⟨r, n, rest, rfl, receive_bad_size junk s hs r n rest, ?_⟩
  intro hn
  by_cases hr : rest.length < n.toInt.toNat
  · exact .inl ⟨hr, receive_short junk s hs r n rest (by omega) (by omega) hr⟩
  right
  obtain ⟨D, rest', rfl, hD⟩ := take_drop_exists rest n.toInt.toNat (by omega)
  rw [List.take_left' hD, List.drop_left' hD]
  rcases data_cases D with ⟨vs, rfl⟩ | ho | hm
  · left
    have hn' : n = BitVec.ofNat 32 (viewsBytes vs).length := by rw [hD, ofNat_of_toInt n (by omega)]
    obtain ⟨es, s', g1, g2, g3, g4⟩ := receive_ok junk s hs r vs (by omega) rest'
    refine ⟨vs, _, s', rfl, by rw [hn', ← List.append_assoc]; exact g1, ?_, g3⟩
    simp only [Req.view, g2.view_eq]
  · exact .inr (.inr ho)
  · by_cases h0 : 0 < n.toInt
    · exact .inr (.inl ⟨hm, (receive_data junk s hs r n D rest' h0 (by omega) hD).2 hm⟩)
    · obtain ⟨vs, tail, rfl, hc⟩ := hm
      have : tail.length = 0 := by rw [List.length_append] at hD; omega
      rcases hc with ⟨h1, _⟩ | ⟨t, vt, sz, tail', rfl, _⟩
      · omega
      · simp at this

/-- C12 fails: every frame with an overrunning entry makes the receiver read outside the frame. -/
theorem C12_overrun_reads_outside (junk : Byte) (s : Session) (hs : Ready s) (r : Req) (n : I32) (D rest : List Byte)
    (h1 : n.toInt ≤ 0x1000000) (hl : D.length = n.toInt.toNat) (ho : Overrun D) :
    receive junk s (headBytes r n ++ (D ++ rest)) = .ub := by
  have h0 : 0 < n.toInt := by
    obtain ⟨vs, t, vt, sz, tail, rfl, _, _⟩ := ho
    rw [List.length_append, List.length_append, le8_length] at hl
    omega
  exact (receive_data junk s hs r n D rest h0 h1 hl).1 ho

/-- A concrete frame of 58 bytes that does it: one entry announcing 4 bytes with none following. -/
theorem C12_witness (junk : Byte) : ∃ s frame, Session.new junk = .ok s ∧ frame.length = 58 ∧
    ∀ rest, receive junk s (frame ++ rest) = .ub := by
  obtain ⟨s, h1, h2⟩ := new_ready junk
  refine ⟨s, headBytes ⟨3, 1, 2, 1, 0, 0, 0, []⟩ 13 ++ (le8 1 ++ 1 :: (le4 4 ++ [])), h1, by decide, ?_⟩
  intro rest
  rw [List.append_assoc]
  exact C12_overrun_reads_outside junk s h2 _ 13 _ rest (by decide) (by decide)
    ⟨[], 1, 1, 4, [], rfl, by decide, by decide⟩

/-- A byte outside the table of message names, too, is undefined behaviour, in the handler. -/
theorem C12_type_out_of_table (t : Byte) : msgTypeName t = .error .ub ↔ 20 ≤ t.toNat := by
  unfold msgTypeName
  split <;> simp <;> omega

/-! ## C13 -/

theorem frames_roundtrip (junk junk' : Byte) : ∀ (rs : List Req), (∀ r ∈ rs, r.Valid ∧ r.dataSize ≤ 0x1000000) →
    ∃ bs, rs.mapM (encodeReq junk) = .ok bs ∧ ∀ s rest, Ready s →
      ∃ rs', serve junk' rs.length s ((bs.map Buf.content).flatten ++ rest) = (rs', rest) ∧
        rs'.map Req.view = rs.map Req.view
  | [], _ => ⟨[], rfl, fun s rest _ => ⟨[], rfl, rfl⟩⟩
  | r :: rs, h => by
    obtain ⟨b, h1, _, h2⟩ := frame_roundtrip junk junk' r (h r (by simp)).1 (h r (by simp)).2
    obtain ⟨bs, h3, h4⟩ := frames_roundtrip junk junk' rs (fun r hr => h r (List.mem_cons_of_mem _ hr))
    refine ⟨b :: bs, by rw [List.mapM_cons, h1, ok_bind, h3, ok_bind]; rfl, ?_⟩
    intro s rest hs
    obtain ⟨r', s', g1, g2, _, _, g3⟩ := h2 s ((bs.map Buf.content).flatten ++ rest) hs
    obtain ⟨rs', g4, g5⟩ := h4 s' rest g3
    refine ⟨r' :: rs', ?_, by rw [List.map_cons, List.map_cons, g2, g5]⟩
    rw [List.map_cons, List.flatten_cons, List.append_assoc, List.length_cons, serve, g1]
    simp only [g4]

/-- C13: frames written one after the other on a new connection are taken apart into the same sequence of requests, and
nothing beyond them is consumed. -/
theorem C13_sequence (junk junk' : Byte) (rs : List Req) (h : ∀ r ∈ rs, r.Valid ∧ r.dataSize ≤ 0x1000000)
    (rest : List Byte) :
    ∃ bs s, rs.mapM (encodeReq junk) = .ok bs ∧ Session.new junk' = .ok s ∧
      ∃ rs', serve junk' rs.length s ((bs.map Buf.content).flatten ++ rest) = (rs', rest) ∧
        rs'.map Req.view = rs.map Req.view := by
  obtain ⟨bs, h1, h2⟩ := frames_roundtrip junk junk' rs h
  obtain ⟨s, h3, h4⟩ := new_ready junk'
  exact ⟨bs, s, h1, h3, h2 s rest h4⟩

example : ∀ r ∈ [sampleReq, { sampleReq with entries := [] }, sampleReq], r.Valid ∧ r.dataSize ≤ 0x1000000 := by
  intro r hr
  simp only [List.mem_cons, List.not_mem_nil, or_false] at hr
  rcases hr with rfl | rfl | rfl
  · exact ⟨sampleReq_ok.1, by rw [sampleReq_ok.2]; decide⟩
  · exact ⟨by intro e he; simp at he, by decide⟩
  · exact ⟨sampleReq_ok.1, by rw [sampleReq_ok.2]; decide⟩

end Cs.Rpc
