import Verif.Link.Model
import Verif.Rpc.Props
import Verif.Codec.Props

/-!
# C87: what is sent is what the handlers get

## Specification: sizes and ranges
-/

namespace Cs.Link
open Cs Cs.Buffer Cs.Codec

/-- Fits in `ulong`. -/
def U64Ok (n : Nat) : Prop := n < 2 ^ 64
/-- Fits in `int32`. -/
def I32Ok (i : Int) : Prop := -2 ^ 31 ≤ i ∧ i < 2 ^ 31

instance (n : Nat) : Decidable (U64Ok n) := inferInstanceAs (Decidable (n < 2 ^ 64))
instance (i : Int) : Decidable (I32Ok i) := inferInstanceAs (Decidable (_ ∧ _))

/-- The id fits, the endpoint is a non-empty C string that the dictionary recognises. -/
def SrvOk (D : Dict) (c : Raft.SrvCfg) : Prop :=
  I32Ok c.id ∧ (D.endpoint c.endpoint ≠ [] ∧ ∀ x ∈ D.endpoint c.endpoint, x ≠ 0) ∧ D.endpointOf (D.endpoint c.endpoint) = c.endpoint

/-- The same for all servers of a configuration. -/
def ConfOk (D : Dict) (c : Raft.Config) : Prop := U64Ok c.logIdx ∧ U64Ok c.prevLogIdx ∧ ∀ s ∈ c.servers, SrvOk D s

/-- The same for a snapshot block. -/
def SyncOk (D : Dict) (q : Raft.SnpSync) : Prop :=
  U64Ok q.snap.lastIdx ∧ U64Ok q.snap.lastTerm ∧ U64Ok q.snap.size ∧ ConfOk D q.snap.config ∧ U64Ok q.offset

/-- An entry that can travel in a request of type `t`: the numbers fit; a command is a buffer, at any position, which the dictionary
recognises; the number of a server travels in a remove request only, a
server record in other requests. -/
def ValOk (D : Dict) (t : Raft.MsgType) : Raft.Val → Prop
  | .app d => Reach (D.command d) ∧ D.commandOf (D.command d).data = d
  | .conf c => ConfOk D c
  | .srv c => SrvOk D c ∧ t ≠ .rmReq
  | .rmId id => I32Ok id ∧ t = .rmReq
  | .logPack => True
  | .snpSync => True

/-- A request that can travel. A log pack and a snapshot block are there if and only if an entry announces them. -/
structure ReqOk (D : Dict) (r : Raft.Req) : Prop where
  src : I32Ok r.src
  dst : I32Ok r.dst
  term : U64Ok r.term
  lastTerm : U64Ok r.lastTerm
  lastIdx : U64Ok r.lastIdx
  commitIdx : U64Ok r.commitIdx
  entries : ∀ e ∈ r.entries, U64Ok e.term ∧ ValOk D r.type e.val
  pack : r.pack = [] ∨ ∃ e ∈ r.entries, e.val = .logPack
  packed : D.packOf (D.pack r.pack) = r.pack
  sync : ∀ q, r.sync = some q → SyncOk D q ∧ ∃ e ∈ r.entries, e.val = .snpSync
  block : (∃ e ∈ r.entries, e.val = .snpSync) → r.sync ≠ none

/-- Bytes of a server record: 4 for the id, the endpoint and a zero. -/
def srvSize (D : Dict) (c : Raft.SrvCfg) : Nat := 4 + (D.endpoint c.endpoint).length + 1
/-- Bytes of a configuration. -/
def confSize (D : Dict) (c : Raft.Config) : Nat := 20 + (c.servers.map (srvSize D)).sum
/-- Bytes of a payload. -/
def valSize (D : Dict) (r : Raft.Req) : Raft.Val → Nat
  | .app d => (D.command d).data.length
  | .conf c => confSize D c
  | .srv c => srvSize D c
  | .rmId _ => 4
  | .logPack => (D.pack r.pack).length
  | .snpSync =>
    match r.sync with
    | some q => 24 + confSize D q.snap.config + 9 + q.data.length
    | none => 0
/-- Bytes of the entries of a request: 13 for each, and the payloads. -/
def reqSize (D : Dict) (r : Raft.Req) : Nat := (r.entries.map fun e => 13 + valSize D r e.val).sum

/-! ## Numbers -/

theorem nat_back {n : Nat} (h : U64Ok n) : (BitVec.ofNat 64 n).toNat = n := by
  rw [BitVec.toNat_ofNat]; exact Nat.mod_eq_of_lt h

theorem int_back {i : Int} (h : I32Ok i) : (BitVec.ofInt 32 i).toInt = i := by
  obtain ⟨h1, h2⟩ := h
  rw [BitVec.toInt_ofInt]
  exact Int.bmod_eq_of_le (by omega) (by omega)

theorem typeOf_typeByte (t : Raft.MsgType) : typeOf (typeByte t) = some t := by cases t <;> rfl

/-! ## Records -/

section
variable {D : Dict}

theorem srv_back {c : Raft.SrvCfg} (h : SrvOk D c) : ofSrv D (toSrv D c) = c := by
  rw [ofSrv, toSrv, int_back h.1, h.2.2]

theorem srvs_back : ∀ {l : List Raft.SrvCfg}, (∀ s ∈ l, SrvOk D s) → (l.map (toSrv D)).map (ofSrv D) = l
  | [], _ => rfl
  | c :: l, h => by
    rw [List.map_cons, List.map_cons, srv_back (h c (List.mem_cons_self ..)),
      srvs_back (fun s hs => h s (List.mem_cons_of_mem _ hs))]

theorem conf_back {c : Raft.Config} (h : ConfOk D c) : ofConf D (toConf D c) = c := by
  rw [ofConf, toConf]
  simp only
  rw [nat_back h.1, nat_back h.2.1, srvs_back h.2.2]

theorem conf_valid {c : Raft.Config} (h : ConfOk D c) : ∀ s ∈ (toConf D c).servers, s.Ok := by
  intro s hs
  obtain ⟨x, hx, rfl⟩ := List.mem_map.1 hs
  exact (h.2.2 x hx).2.1

theorem snap_back {q : Raft.SnpSync} (h : SyncOk D q) : ofSnap D (toSnap D q.snap) = q.snap := by
  rw [ofSnap, toSnap]
  simp only
  rw [nat_back h.1, nat_back h.2.1, nat_back h.2.2.1, conf_back h.2.2.2.1]

theorem srv_size (c : Raft.SrvCfg) : (toSrv D c).bytes.length = srvSize D c := SrvConf.bytes_length _

theorem conf_size (c : Raft.Config) : (toConf D c).bytes.length = confSize D c := by
  rw [encSize_conf, ClusterConf.encSize, confSize, toConf]
  simp only [List.map_map]
  rfl

/-! ## Payload buffers -/

/-- The payload bytes. -/
def valBytes (D : Dict) (r : Raft.Req) : Raft.Val → List Byte
  | .app d => (D.command d).data
  | .conf c => (toConf D c).bytes
  | .srv c => (toSrv D c).bytes
  | .rmId id => le4 (BitVec.ofInt 32 id)
  | .logPack => D.pack r.pack
  | .snpSync =>
    match r.sync with
    | some q => (toSnap D q.snap).bytes ++ (le8 (BitVec.ofNat 64 q.offset) ++ ((if q.done then 1 else 0) :: q.data))
    | none => []

theorem valBytes_length (r : Raft.Req) (v : Raft.Val) : (valBytes D r v).length = valSize D r v := by
  cases v with
  | app d => rfl
  | conf c => exact conf_size c
  | srv c => exact srv_size c
  | rmId id => exact le4_length _
  | logPack => rfl
  | snpSync =>
    simp only [valBytes, valSize]
    cases r.sync with
    | none => rfl
    | some q =>
      simp only [List.length_append, List.length_cons, le8_length]
      rw [Codec.Snap.bytes_length, show (toSnap D q.snap).conf = toConf D q.snap.config from rfl, conf_size]
      omega

theorem fill_ok (junk : Byte) {bs : List Byte} (h : bs.length < 2 ^ 31) : ∃ b, fill junk bs = .ok b ∧ Rd b [] bs := by
  obtain ⟨b, h1, h2⟩ := Rd.alloc junk h
  refine ⟨{ b with data := bs }, ?_, Rd.fillAll h2 (by simp)⟩
  rw [fill, h1, ok_bind]
  rfl

theorem rmBuf_ok (junk : Byte) (id : Int) : ∃ b, rmBuf junk id = .ok b ∧ Rd b [] (le4 (BitVec.ofInt 32 id)) := by
  obtain ⟨b0, h0, w0⟩ := Wr.alloc junk (n := 4) (by decide)
  obtain ⟨b1, h1, w1⟩ := w0.putInt (BitVec.ofInt 32 id) (by omega)
  obtain ⟨b2, h2, w2⟩ := Wr.rewind w1
  refine ⟨b2, ?_, by simpa using w2⟩
  rw [rmBuf, h0, ok_bind, finish_ok]
  rw [run_bind_ok h1, h2]

/-- A snapshot block, wherever the state machine leaves the buffer: the bytes behind the position are written. -/
theorem snpBuf_ok (junk : Byte) (q : Raft.SnpSync) (h : 24 + confSize D q.snap.config + 9 + q.data.length < 2 ^ 31) :
    ∃ b, snpBuf D junk q = .ok b ∧ Rd b [] ((toSnap D q.snap).bytes ++ (le8 (BitVec.ofNat 64 q.offset) ++
      ((if q.done then 1 else 0) :: q.data.drop (D.left q.data)))) := by
  obtain ⟨d, h1, h2⟩ := fill_ok junk (bs := q.data) (by omega)
  have hx : ∃ d', seek (D.left q.data) d = (.ok (), d') ∧ Reach d' ∧ d'.content = q.data.drop (D.left q.data) := by
    have h4 := seek_at h2 (D.left q.data)
    refine ⟨_, seek_run h2 (D.left q.data), At.reach h4, ?_⟩
    rw [content_at h4]
    simp only [List.nil_append]
    by_cases hl : D.left q.data ≤ q.data.length
    · rw [Nat.min_eq_left hl]
    · rw [Nat.min_eq_right (by omega), List.drop_eq_nil_of_le (by omega), List.drop_eq_nil_of_le (by omega)]
  obtain ⟨d', h3, hr, hc⟩ := hx
  obtain ⟨b, h5, h6⟩ := SnapReq.serialize_ok junk ⟨toSnap D q.snap, BitVec.ofNat 64 q.offset, d', q.done⟩ hr (by
    rw [SnapReq.bytes_length, Codec.Snap.bytes_length]
    simp only
    rw [show (toSnap D q.snap).conf = toConf D q.snap.config from rfl, conf_size, hc, List.length_drop]
    omega)
  rw [SnapReq.bytes] at h6
  simp only at h6
  rw [hc] at h6
  refine ⟨b, ?_, h6⟩
  rw [snpBuf, h1, ok_bind, finish_ok h3, ok_bind, h5]

theorem payload_ok (junk : Byte) (r : Raft.Req) (v : Raft.Val) (h : valSize D r v < 2 ^ 31)
    (ha : ∀ d, v = .app d → Reach (D.command d)) (hb : v = .snpSync → r.sync ≠ none)
    (hl : ∀ q, r.sync = some q → D.left q.data = 0) :
    ∃ b, payload D junk r v = .ok b ∧ Reach b ∧ b.data = valBytes D r v := by
  have conv : ∀ {x : Except Fault Buf} {bs : List Byte}, (∃ b, x = .ok b ∧ Rd b [] bs) → ∃ b, x = .ok b ∧ Reach b ∧ b.data = bs :=
    fun ⟨b, h1, h2⟩ => ⟨b, h1, Codec.Rd.reach h2, by have := At.data h2; simpa using this⟩
  cases v with
  | app d => exact ⟨D.command d, rfl, ha d rfl, rfl⟩
  | conf c => exact conv (ClusterConf.serialize_ok junk _ (by rw [conf_size]; exact h))
  | srv c => exact conv (SrvConf.serialize_ok junk _ (by rw [srv_size]; exact h))
  | rmId id => exact conv (rmBuf_ok junk id)
  | logPack => exact conv (fill_ok junk h)
  | snpSync =>
    simp only [valBytes, valSize, payload] at h ⊢
    cases hs : r.sync with
    | none => exact absurd hs (hb rfl)
    | some q =>
      rw [hs] at h
      simp only at h ⊢
      have := snpBuf_ok (D := D) junk q h
      rw [hl q hs, List.drop_zero] at this
      exact conv this

/-! ## Reading payloads -/

/-- What is to be found in an entry. -/
def found (r : Raft.Req) : Raft.Val → Found
  | .logPack => .pack r.pack
  | .snpSync =>
    match r.sync with
    | some q => .sync q
    | none => .plain .snpSync
  | v => .plain v

theorem found_val (r : Raft.Req) (v : Raft.Val) : (found r v).val = v := by
  cases v <;> try rfl
  simp only [found]
  cases r.sync <;> rfl

theorem readVal_ok (junk : Byte) (r : Raft.Req) (v : Raft.Val) (hv : ValOk D r.type v) (hp : D.packOf (D.pack r.pack) = r.pack)
    (hq : ∀ q, r.sync = some q → SyncOk D q) (hb : v = .snpSync → r.sync ≠ none) {b : Buf} (h : Rd b [] (valBytes D r v)) :
    readVal D junk r.type (valByte v) b = .ok (found r v) := by
  have hc := Codec.Rd.content h
  cases v with
  | app d =>
    simp only [valByte, found]
    rw [readVal, if_pos rfl, hc, valBytes, hv.2]
  | conf c =>
    simp only [valBytes] at h
    rw [← List.append_nil (toConf D c).bytes] at h
    obtain ⟨b', h1, _⟩ := ClusterConf.deserialize_ok _ (conf_valid hv) h
    simp only [valByte, found]
    rw [readVal, if_neg (by decide), if_pos rfl, h1]
    simp only [Except.map]
    rw [conf_back hv]
  | srv c =>
    simp only [valBytes] at h
    rw [← List.append_nil (toSrv D c).bytes] at h
    obtain ⟨b', h1, _⟩ := SrvConf.deserialize_ok (toSrv D c) hv.1.2.1 h
    simp only [valByte, found]
    rw [readVal, if_neg (by decide), if_neg (by decide), if_pos rfl, if_neg hv.2, h1]
    simp only [Except.map]
    rw [srv_back hv.1]
  | rmId id =>
    have hsz : b.size = 4 := by rw [(Rd.posz h).2]; exact le4_length _
    simp only [valBytes] at h
    rw [← List.append_nil (le4 _)] at h
    obtain ⟨b', h1, _⟩ := Rd.getInt _ h
    simp only [valByte, found]
    rw [readVal, if_neg (by decide), if_neg (by decide), if_pos rfl, if_pos hv.2, if_neg (by rw [hsz]; simp), h1]
    simp only [Except.map]
    rw [int_back hv.1]
  | logPack =>
    simp only [valByte, found]
    rw [readVal, if_neg (by decide), if_neg (by decide), if_neg (by decide), if_pos rfl, hc, valBytes, hp]
  | snpSync =>
    cases hs : r.sync with
    | none => exact absurd hs (hb rfl)
    | some q =>
      simp only [valBytes, hs] at h
      have hd : q.data.length < 2 ^ 31 := by
        have := Rd.lt h
        simp only [List.length_append, List.length_cons] at this
        omega
      obtain ⟨d, _, hdr⟩ := fill_ok junk hd
      obtain ⟨q', b', h1, h2, h3, h4, h5⟩ := SnapReq.deserialize_ok junk
        ⟨toSnap D q.snap, BitVec.ofNat 64 q.offset, d, q.done⟩ (conf_valid (hq q hs).2.2.2.1) (r := b) (pre := [])
        (by rw [SnapReq.bytes]; simp only; rw [Codec.Rd.content hdr]; exact h)
      simp only [valByte, found, hs]
      rw [readVal, if_neg (by decide), if_neg (by decide), if_neg (by decide), if_neg (by decide), if_pos rfl, h1]
      simp only [Except.map, ofSync]
      simp only at h2 h3 h4 h5
      rw [h2, h3, h4, Codec.Rd.content h5, Codec.Rd.content hdr, snap_back (hq q hs), nat_back (hq q hs).2.2.2.2]

/-! ## Lists of entries -/

theorem wireEntries_ok (junk : Byte) (r : Raft.Req) (hl : ∀ q, r.sync = some q → D.left q.data = 0) :
    ∀ (es : List Raft.Entry), (∀ e ∈ es, valSize D r e.val < 2 ^ 31) → (∀ e ∈ es, ∀ d, e.val = .app d → Reach (D.command d)) →
    (∀ e ∈ es, e.val = .snpSync → r.sync ≠ none) → ∃ ws, wireEntries D junk r es = .ok ws ∧ (∀ w ∈ ws, ∃ b, w.buff = some b ∧ Reach b) ∧
      ws.map Rpc.view = es.map (fun e => (BitVec.ofNat 64 e.term, valByte e.val, some (valBytes D r e.val)))
  | [], _, _, _ => ⟨[], rfl, fun _ h => (by cases h), rfl⟩
  | e :: es, h, ha, hb => by
    obtain ⟨b, h1, h2, h3⟩ := payload_ok junk r e.val (h e (List.mem_cons_self ..)) (ha e (List.mem_cons_self ..))
      (hb e (List.mem_cons_self ..)) hl
    obtain ⟨ws, h4, h5, h6⟩ := wireEntries_ok junk r hl es (fun x hx => h x (List.mem_cons_of_mem _ hx))
      (fun x hx => ha x (List.mem_cons_of_mem _ hx)) (fun x hx => hb x (List.mem_cons_of_mem _ hx))
    refine ⟨⟨BitVec.ofNat 64 e.term, valByte e.val, some b⟩ :: ws, ?_, ?_, ?_⟩
    · rw [wireEntries, h1, ok_bind, h4, ok_bind]; rfl
    · intro w hw
      rcases List.mem_cons.1 hw with rfl | hw
      · exact ⟨b, rfl, h2⟩
      · exact h5 w hw
    · rw [List.map_cons, List.map_cons, h6, Rpc.view]
      simp only [Option.map_some, h3]

theorem readEntries_ok (junk : Byte) (r : Raft.Req) (hq : ∀ q, r.sync = some q → SyncOk D q)
    (hk : D.packOf (D.pack r.pack) = r.pack) :
    ∀ (es : List Raft.Entry) (ws : List LogEntry), (∀ e ∈ es, U64Ok e.term ∧ ValOk D r.type e.val) →
    (∀ e ∈ es, e.val = .snpSync → r.sync ≠ none) → (∀ w ∈ ws, ∃ b, w.buff = some b ∧ Reach b) →
    (∀ w ∈ ws, ∃ b, w.buff = some b ∧ b.pos = 0) →
    ws.map Rpc.view = es.map (fun e => (BitVec.ofNat 64 e.term, valByte e.val, some (valBytes D r e.val))) →
    readEntries D junk r.type ws = .ok (es.map fun e => (e.term, found r e.val))
  | [], ws, _, _, _, _, hv => by
    have : ws = [] := by simpa using hv
    subst this
    rfl
  | e :: es, ws, he, hb, hr, hp, hv => by
    cases ws with
    | nil => cases hv
    | cons w ws =>
      rw [List.map_cons, List.map_cons, List.cons.injEq, Rpc.view, Prod.mk.injEq, Prod.mk.injEq] at hv
      obtain ⟨⟨v1, v2, v3⟩, v4⟩ := hv
      obtain ⟨b, b1, b2⟩ := hr w (List.mem_cons_self ..)
      obtain ⟨b', b3, b4⟩ := hp w (List.mem_cons_self ..)
      rw [b1] at b3 v3
      cases b3
      simp only [Option.map_some, Option.some.injEq] at v3
      have hrd : Rd b [] (valBytes D r e.val) := by
        obtain ⟨d, p, ha⟩ := b2.at
        have hpp := ha.pos
        have hdd := ha.data
        rw [Rd, List.nil_append, List.length_nil, ← v3, hdd]
        rw [b4] at hpp
        rw [← hpp] at ha
        exact ha
      have ih := readEntries_ok junk r hq hk es ws (fun x hx => he x (List.mem_cons_of_mem _ hx))
        (fun x hx => hb x (List.mem_cons_of_mem _ hx)) (fun x hx => hr x (List.mem_cons_of_mem _ hx))
        (fun x hx => hp x (List.mem_cons_of_mem _ hx)) v4
      obtain ⟨he1, he2⟩ := he e (List.mem_cons_self ..)
      rw [readEntries, b1]
      simp only
      rw [v2, readVal_ok junk r e.val he2 hk hq (hb e (List.mem_cons_self ..)) hrd, ok_bind, ih, ok_bind, v1, nat_back he1]
      rfl

theorem packIn_found (r : Raft.Req) : ∀ (es : List Raft.Entry), (r.pack = [] ∨ ∃ e ∈ es, e.val = .logPack) →
    packIn (es.map fun e => (e.term, found r e.val)) = r.pack
  | [], h => by
    rcases h with h | ⟨e, he, _⟩
    · rw [h]; rfl
    · cases he
  | e :: es, h => by
    rw [List.map_cons]
    by_cases hv : e.val = .logPack
    · rw [hv]; rfl
    · have hx : packIn ((e.term, found r e.val) :: es.map fun e => (e.term, found r e.val)) =
          packIn (es.map fun e => (e.term, found r e.val)) := by
        cases hc : e.val with
        | logPack => exact absurd hc hv
        | snpSync => simp only [found]; cases r.sync <;> rfl
        | _ => rfl
      rw [hx]
      refine packIn_found r es (h.imp id ?_)
      rintro ⟨x, hx, hxv⟩
      rcases List.mem_cons.1 hx with rfl | hx
      · exact absurd hxv hv
      · exact ⟨x, hx, hxv⟩

theorem syncIn_found (r : Raft.Req) : ∀ (es : List Raft.Entry), (∀ q, r.sync = some q → ∃ e ∈ es, e.val = .snpSync) →
    syncIn (es.map fun e => (e.term, found r e.val)) = r.sync
  | [], h => by
    cases hs : r.sync with
    | none => rfl
    | some q => obtain ⟨e, he, _⟩ := h q hs; cases he
  | e :: es, h => by
    rw [List.map_cons]
    cases hs : r.sync with
    | some q =>
      by_cases hv : e.val = .snpSync
      · rw [hv, found, hs]; rfl
      · have hx : syncIn ((e.term, found r e.val) :: es.map fun e => (e.term, found r e.val)) =
            syncIn (es.map fun e => (e.term, found r e.val)) := by
          cases hc : e.val with
          | snpSync => exact absurd hc hv
          | _ => rfl
        rw [hx, ← hs]
        refine syncIn_found r es fun q' hq' => ?_
        obtain ⟨x, hx, hxv⟩ := h q' hq'
        rcases List.mem_cons.1 hx with rfl | hx
        · exact absurd hxv hv
        · exact ⟨x, hx, hxv⟩
    | none =>
      have hx : syncIn ((e.term, found r e.val) :: es.map fun e => (e.term, found r e.val)) =
          syncIn (es.map fun e => (e.term, found r e.val)) := by
        cases hc : e.val with
        | snpSync => simp only [found, hs]; rfl
        | _ => rfl
      rw [hx, ← hs]
      exact syncIn_found r es fun q' hq' => (by rw [hs] at hq'; cases hq')

/-! ## The request -/

theorem sum_mem {α : Type} (f : α → Nat) : ∀ {l : List α} {x : α}, x ∈ l → f x ≤ (l.map f).sum
  | y :: l, x, h => by
    rw [List.map_cons, List.sum_cons]
    rcases List.mem_cons.1 h with rfl | h
    · omega
    · have := sum_mem f h; omega

theorem view_size {r : Raft.Req} : ∀ {es : List Raft.Entry} {ws : List LogEntry}, (∀ w ∈ ws, ∃ b, w.buff = some b ∧ Reach b) →
    ws.map Rpc.view = es.map (fun e => (BitVec.ofNat 64 e.term, valByte e.val, some (valBytes D r e.val))) →
    (ws.map Rpc.entrySize).sum = (es.map fun e => 13 + valSize D r e.val).sum
  | [], ws, _, hv => by
    have : ws = [] := by simpa using hv
    subst this
    rfl
  | e :: es, [], _, hv => by cases hv
  | e :: es, w :: ws, hr, hv => by
    rw [List.map_cons, List.map_cons, List.cons.injEq, Rpc.view, Prod.mk.injEq, Prod.mk.injEq] at hv
    obtain ⟨⟨v1, v2, v3⟩, v4⟩ := hv
    obtain ⟨b, b1, _⟩ := hr w (List.mem_cons_self ..)
    rw [b1] at v3
    simp only [Option.map_some, Option.some.injEq] at v3
    rw [List.map_cons, List.map_cons, List.sum_cons, List.sum_cons, view_size (fun x hx => hr x (List.mem_cons_of_mem _ hx)) v4,
      Rpc.entrySize, b1]
    simp only
    rw [v3, valBytes_length]

/-- The request as it is handed to the connection. -/
theorem wire_ok (junk : Byte) (r : Raft.Req) (hl : ∀ q, r.sync = some q → D.left q.data = 0)
    (ha : ∀ e ∈ r.entries, ∀ d, e.val = .app d → Reach (D.command d)) (hb : (∃ e ∈ r.entries, e.val = .snpSync) → r.sync ≠ none)
    (hs : reqSize D r < 2 ^ 31) :
    ∃ w, wire D junk r = .ok w ∧ w.Valid ∧ w.dataSize = reqSize D r ∧ w.view = (typeByte r.type, BitVec.ofInt 32 r.src,
      BitVec.ofInt 32 r.dst, BitVec.ofNat 64 r.term, BitVec.ofNat 64 r.lastTerm, BitVec.ofNat 64 r.lastIdx,
      BitVec.ofNat 64 r.commitIdx, r.entries.map (fun e => (BitVec.ofNat 64 e.term, valByte e.val, some (valBytes D r e.val)))) := by
  obtain ⟨ws, h1, h2, h3⟩ := wireEntries_ok junk r hl r.entries (fun e he => by
    have := sum_mem (fun e : Raft.Entry => 13 + valSize D r e.val) he
    rw [reqSize] at hs
    omega) ha (fun e he hv => hb ⟨e, he, hv⟩)
  refine ⟨⟨typeByte r.type, BitVec.ofInt 32 r.src, BitVec.ofInt 32 r.dst, BitVec.ofNat 64 r.term, BitVec.ofNat 64 r.lastTerm,
    BitVec.ofNat 64 r.lastIdx, BitVec.ofNat 64 r.commitIdx, ws⟩, ?_, h2, view_size h2 h3, ?_⟩
  · rw [wire, h1, ok_bind]; rfl
  · rw [Rpc.Req.view]; simp only [h3]

end

theorem ReqOk.reach {D : Dict} {r : Raft.Req} (h : ReqOk D r) : ∀ e ∈ r.entries, ∀ d, e.val = .app d → Reach (D.command d) :=
  fun e he d hd => by have := (h.entries e he).2; rw [hd] at this; exact this.1

/-- C87 (partial): the request is handed to the connection; the session on the other side, whatever arrives behind it, gives the
handlers the same request: all numbers, all entries, configurations, servers, log packs and snapshot blocks. Missing: requests whose
numbers or strings do not fit (`ReqOk`), whose entries take more than 16 MiB, and snapshot blocks that the state machine does not leave
at their start. -/
theorem sent_received_partial (D : Dict) (junk junk' : Byte) (r : Raft.Req) (h : ReqOk D r)
    (hl : ∀ q, r.sync = some q → D.left q.data = 0) (hs : reqSize D r ≤ 0x1000000) (rest : List Byte) :
    ∃ w b s w' s', wire D junk r = .ok w ∧ Rpc.encodeReq junk w = .ok b ∧ Rpc.Session.new junk' = .ok s ∧
      Rpc.receive junk' s (b.content ++ rest) = .request w' s' rest ∧ unwire D junk' w' = .ok r := by
  obtain ⟨w, w1, w2, w3, w4⟩ := wire_ok junk r hl h.reach h.block (by omega)
  obtain ⟨b, b1, _, b2⟩ := Rpc.frame_roundtrip junk junk' w w2 (by omega)
  obtain ⟨s, s1, s2⟩ := Rpc.new_ready junk'
  obtain ⟨w', s', r1, r2, r3, r4, _⟩ := b2 s rest s2
  refine ⟨w, b, s, w', s', w1, b1, s1, r1, ?_⟩
  rw [w4, Rpc.Req.view] at r2
  simp only [Prod.mk.injEq] at r2
  obtain ⟨v1, v2, v3, v4, v5, v6, v7, v8⟩ := r2
  have hre := readEntries_ok junk' r (fun q hq => (h.sync q hq).1) h.packed r.entries w'.entries h.entries
    (fun e he hv => h.block ⟨e, he, hv⟩) r3 r4 v8
  rw [unwire, v1, typeOf_typeByte]
  simp only
  rw [hre, ok_bind, packIn_found r _ h.pack, syncIn_found r _ (fun q hq => (h.sync q hq).2), v2, v3, v4, v5, v6, v7,
    int_back h.src, int_back h.dst, nat_back h.term, nat_back h.lastTerm, nat_back h.lastIdx, nat_back h.commitIdx]
  rw [List.map_map, show ((fun f : Nat × Found => (⟨f.1, f.2.val⟩ : Raft.Entry)) ∘ fun e => (e.term, found r e.val)) = id by
    funext e; simp only [Function.comp_apply, found_val, id_eq]]
  rw [List.map_id]
  rfl

/-- C87, answers: the client is given the answer that the handler of the other side gave. -/
theorem answer_received (junk : Byte) (r : Raft.Resp) (h1 : I32Ok r.src) (h2 : I32Ok r.dst) (h3 : U64Ok r.term) (h4 : U64Ok r.nextIdx) :
    ∃ b, Rpc.encodeResp junk (wireResp r) = .ok b ∧ b.content.length = 26 ∧ ∀ b', Reach b' → b'.content = b.content →
      ∃ w b'', Rpc.parseResp b' = (.ok w, b'') ∧ unwireResp w = some r := by
  obtain ⟨b, e1, e2, e3⟩ := Rpc.C11_response junk (wireResp r)
  refine ⟨b, e1, e2, fun b' hb hc => ?_⟩
  obtain ⟨b'', e4⟩ := e3 b' hb hc
  refine ⟨_, b'', e4, ?_⟩
  rw [unwireResp, wireResp]
  simp only
  rw [typeOf_typeByte, Option.map_some, int_back h1, int_back h2, nat_back h3, nat_back h4]

/-! ## Snapshot blocks -/

/-- The block without the bytes before the position at which the state machine left the buffer. -/
def cutBlock (D : Dict) (r : Raft.Req) : Raft.Req :=
  { r with sync := r.sync.map fun q => { q with data := q.data.drop (D.left q.data) } }

/-- The same dictionary with a state machine that leaves the buffer at its start. -/
def Dict.atStart (D : Dict) : Dict := { D with left := fun _ => 0 }

theorem Rd.unique {b b' : Buf} {bs : List Byte} (h : Rd b [] bs) (h' : Rd b' [] bs) : b = b' :=
  HdrAt.ext h.hdr h'.hdr (by rw [At.data h, At.data h'])

theorem payload_cut (D : Dict) (junk : Byte) (r : Raft.Req) (v : Raft.Val) (h : valSize D r v < 2 ^ 31) :
    payload D junk r v = payload D.atStart junk (cutBlock D r) v := by
  cases v with
  | snpSync =>
    simp only [payload, cutBlock]
    cases hs : r.sync with
    | none => rfl
    | some q =>
      simp only [valSize, hs] at h
      obtain ⟨b, h1, h2⟩ := snpBuf_ok (D := D) junk q h
      obtain ⟨b', h3, h4⟩ := snpBuf_ok (D := D.atStart) junk { q with data := q.data.drop (D.left q.data) } (by
        have : confSize D.atStart q.snap.config = confSize D q.snap.config := rfl
        simp only [List.length_drop]
        omega)
      simp only [Option.map_some]
      rw [h1, h3, Rd.unique h2 h4]
  | _ => rfl

theorem wireEntries_cut (D : Dict) (junk : Byte) (r : Raft.Req) : ∀ (es : List Raft.Entry), (∀ e ∈ es, valSize D r e.val < 2 ^ 31) →
    wireEntries D junk r es = wireEntries D.atStart junk (cutBlock D r) es
  | [], _ => rfl
  | e :: es, h => by
    rw [wireEntries, wireEntries, payload_cut D junk r e.val (h e (List.mem_cons_self ..)),
      wireEntries_cut D junk r es fun x hx => h x (List.mem_cons_of_mem _ hx)]

theorem readVal_atStart (D : Dict) (junk : Byte) (t : Raft.MsgType) (v : Byte) (b : Buf) :
    readVal D.atStart junk t v b = readVal D junk t v b := rfl

theorem readEntries_atStart (D : Dict) (junk : Byte) (t : Raft.MsgType) :
    ∀ ws, readEntries D.atStart junk t ws = readEntries D junk t ws
  | [] => rfl
  | w :: ws => by
    rw [readEntries, readEntries]
    cases w.buff with
    | none => rfl
    | some b => simp only; rw [readVal_atStart, readEntries_atStart D junk t ws]

theorem valSize_cut (D : Dict) (r : Raft.Req) (v : Raft.Val) : valSize D.atStart (cutBlock D r) v ≤ valSize D r v := by
  cases v with
  | snpSync =>
    simp only [valSize, cutBlock]
    cases r.sync with
    | none => exact Nat.le_refl _
    | some q =>
      have : confSize D.atStart q.snap.config = confSize D q.snap.config := rfl
      simp only [Option.map_some, List.length_drop]
      omega
  | _ => exact Nat.le_refl _

theorem sum_le {α : Type} {f g : α → Nat} (h : ∀ x, f x ≤ g x) : ∀ l : List α, (l.map f).sum ≤ (l.map g).sum
  | [] => Nat.le_refl _
  | x :: l => by
    have := h x
    have := sum_le h l
    simp only [List.map_cons, List.sum_cons]
    omega

/-- C87 fails for snapshot blocks: of the bytes that the state machine has put in the buffer, the handlers of the other side are given
those behind the position at which it left the buffer. All bytes arrive if and only if this is the start (or the block is empty). -/
theorem block_cut (D : Dict) (junk junk' : Byte) (r : Raft.Req) (h : ReqOk D r) (hs : reqSize D r ≤ 0x1000000)
    (rest : List Byte) :
    ∃ w b s w' s', wire D junk r = .ok w ∧ Rpc.encodeReq junk w = .ok b ∧ Rpc.Session.new junk' = .ok s ∧
      Rpc.receive junk' s (b.content ++ rest) = .request w' s' rest ∧ unwire D junk' w' = .ok (cutBlock D r) := by
  have hsz : ∀ e ∈ r.entries, valSize D r e.val < 2 ^ 31 := fun e he => by
    have := sum_mem (fun e : Raft.Entry => 13 + valSize D r e.val) he
    rw [reqSize] at hs
    omega
  have hw : wire D junk r = wire D.atStart junk (cutBlock D r) := by
    rw [wire, wire, wireEntries_cut D junk r r.entries hsz]
    rfl
  have hok : ReqOk D.atStart (cutBlock D r) := by
    refine ⟨h.src, h.dst, h.term, h.lastTerm, h.lastIdx, h.commitIdx, ?_, h.pack, h.packed, ?_, ?_⟩
    · intro e he
      have := h.entries e he
      refine ⟨this.1, ?_⟩
      cases hv : e.val <;> rw [hv] at this <;> first | exact this.2 | trivial
    · intro q hq
      cases hsy : r.sync with
      | none => rw [cutBlock, hsy] at hq; cases hq
      | some q0 =>
        rw [cutBlock, hsy] at hq
        cases hq
        exact h.sync q0 hsy
    · intro he
      have := h.block he
      cases hsy : r.sync with
      | none => exact absurd hsy this
      | some q0 => simp [cutBlock, hsy]
  have hs' : reqSize D.atStart (cutBlock D r) ≤ 0x1000000 :=
    Nat.le_trans (sum_le (fun e => Nat.add_le_add_left (valSize_cut D r e.val) 13) r.entries) hs
  obtain ⟨w, b, s, w', s', h1, h2, h3, h4, h5⟩ :=
    sent_received_partial D.atStart junk junk' (cutBlock D r) hok (fun _ _ => rfl) hs' rest
  refine ⟨w, b, s, w', s', hw.trans h1, h2, h3, h4, ?_⟩
  rw [← h5, unwire, unwire]
  cases typeOf w'.type with
  | none => rfl
  | some t => simp only; rw [readEntries_atStart]

/-! ## Concrete cases -/

/-- A buffer with these bytes, left at position `p`. -/
def bufAt (bs : List Byte) (p : Nat) : Buf :=
  match fill 0 bs with
  | .ok b => (Buffer.seek p b).2
  | .error _ => ⟨0, 0, []⟩

theorem bufAt_ok {bs : List Byte} (p : Nat) (h : bs.length < 2 ^ 31) : Reach (bufAt bs p) ∧ (bufAt bs p).data = bs := by
  obtain ⟨b, h1, h2⟩ := fill_ok 0 h
  have h3 := seek_run h2 p
  have h4 := seek_at h2 p
  rw [bufAt, h1]
  simp only
  rw [h3]
  exact ⟨At.reach h4, by have := At.data h4; simpa using this⟩

/-- A dictionary: endpoint `n` is `n + 1` letters, command `n` is a buffer of `n` bytes left at position 1, a log pack has one byte per
entry, its term; the state machine leaves a block at position `k`. -/
def dict (k : Nat) : Dict :=
  { endpoint := (fun n => List.replicate (n + 1) 97), endpointOf := (fun l => l.length - 1),
    command := (fun n => bufAt (List.replicate n 7) 1), commandOf := List.length,
    pack := (fun es => es.map fun e => BitVec.ofNat 8 e.term), packOf := (fun l => l.map fun b => ⟨b.toNat, .app 0⟩),
    left := (fun _ => k) }

theorem dict_srv (k : Nat) {c : Raft.SrvCfg} (h : I32Ok c.id) : SrvOk (dict k) c := by
  refine ⟨h, ⟨?_, ?_⟩, ?_⟩
  · simp [dict]
  · intro x hx
    rw [(List.mem_replicate.1 hx).2]
    decide
  · simp [dict]

theorem dict_app (k : Nat) {t : Raft.MsgType} {n : Nat} (h : n < 2 ^ 31) : ValOk (dict k) t (.app n) := by
  obtain ⟨h1, h2⟩ := bufAt_ok (bs := List.replicate n 7) 1 (by simpa using h)
  refine ⟨h1, ?_⟩
  show List.length (bufAt (List.replicate n 7) 1).data = n
  rw [h2, List.length_replicate]

theorem dict_conf (k : Nat) {c : Raft.Config} (h1 : U64Ok c.logIdx) (h2 : U64Ok c.prevLogIdx) (h3 : ∀ s ∈ c.servers, I32Ok s.id) :
    ConfOk (dict k) c := ⟨h1, h2, fun s hs => dict_srv k (h3 s hs)⟩

/-- An append request with a command of five bytes and a configuration. -/
def sample : Raft.Req :=
  { type := .appendReq, src := 1, dst := -2, term := 7, lastTerm := 6, lastIdx := 41, commitIdx := 40,
    entries := [⟨6, .app 5⟩, ⟨7, .conf ⟨43, 1, [⟨1, 1⟩, ⟨-2, 2⟩]⟩⟩] }

theorem sample_ok : ReqOk (dict 0) sample := by
  refine ⟨by decide, by decide, by decide, by decide, by decide, by decide, ?_, .inl rfl, rfl, fun q hq => (by cases hq), ?_⟩
  · intro e he
    rcases List.mem_cons.1 he with rfl | he
    · exact ⟨by decide, dict_app 0 (by decide)⟩
    · rw [List.mem_singleton.1 he]
      exact ⟨by decide, dict_conf 0 (by decide) (by decide) (by decide)⟩
  · rintro ⟨e, he, hv⟩
    rcases List.mem_cons.1 he with rfl | he
    · cases hv
    · rw [List.mem_singleton.1 he] at hv; cases hv

theorem sample_size (k : Nat) : reqSize (dict k) sample = 66 := by
  have : ((dict k).command 5).data.length = 5 := by
    have := (bufAt_ok (bs := List.replicate 5 7) 1 (by decide)).2
    show (bufAt (List.replicate 5 7) 1).data.length = 5
    rw [this]; rfl
  simp only [reqSize, sample, List.map_cons, List.map_nil, List.sum_cons, List.sum_nil, valSize, this]
  rfl

/-- It is received as it was sent, though the command was left at position 1. -/
example (rest : List Byte) : ∃ w b s w' s', wire (dict 0) 0 sample = .ok w ∧ Rpc.encodeReq 0 w = .ok b ∧ Rpc.Session.new 9 = .ok s ∧
    Rpc.receive 9 s (b.content ++ rest) = .request w' s' rest ∧ unwire (dict 0) 9 w' = .ok sample :=
  sent_received_partial (dict 0) 0 9 sample sample_ok (fun _ h => (by cases h)) (by rw [sample_size]; decide) rest

/-- A log pack, a number to remove and a server to add. -/
example : ReqOk (dict 0) { type := .syncReq, src := 1, dst := 4, term := 3, lastTerm := 0, lastIdx := 2, commitIdx := 2, entries := [⟨7, .logPack⟩], pack := [⟨3, .app 0⟩, ⟨200, .app 0⟩] } := by
  refine ⟨by decide, by decide, by decide, by decide, by decide, by decide, ?_, .inr ⟨_, List.mem_singleton.2 rfl, rfl⟩, rfl,
    fun q hq => (by cases hq), ?_⟩
  · intro e he; rw [List.mem_singleton.1 he]; exact ⟨by decide, trivial⟩
  · rintro ⟨e, he, hv⟩; rw [List.mem_singleton.1 he] at hv; cases hv
example : ReqOk (dict 0) { type := .rmReq, src := 0, dst := 1, term := 3, lastTerm := 0, lastIdx := 2, commitIdx := 2, entries := [⟨0, .rmId (-3)⟩] } := by
  refine ⟨by decide, by decide, by decide, by decide, by decide, by decide, ?_, .inl rfl, rfl, fun q hq => (by cases hq), ?_⟩
  · intro e he; rw [List.mem_singleton.1 he]; exact ⟨by decide, by decide, rfl⟩
  · rintro ⟨e, he, hv⟩; rw [List.mem_singleton.1 he] at hv; cases hv
example : ReqOk (dict 0) { type := .addReq, src := 0, dst := 1, term := 3, lastTerm := 0, lastIdx := 2, commitIdx := 2, entries := [⟨0, .srv ⟨9, 4⟩⟩] } := by
  refine ⟨by decide, by decide, by decide, by decide, by decide, by decide, ?_, .inl rfl, rfl, fun q hq => (by cases hq), ?_⟩
  · intro e he; rw [List.mem_singleton.1 he]; exact ⟨by decide, dict_srv 0 (by decide), by decide⟩
  · rintro ⟨e, he, hv⟩; rw [List.mem_singleton.1 he] at hv; cases hv

/-- A block of three bytes. -/
def blockReq (bs : List Byte) : Raft.Req :=
  { type := .snpReq, src := 1, dst := 2, term := 7, lastTerm := 6, lastIdx := 41, commitIdx := 41, entries := [⟨7, .snpSync⟩],
    sync := some ⟨⟨41, 6, ⟨40, 1, [⟨1, 1⟩, ⟨2, 2⟩]⟩, 100⟩, 12, bs, false⟩ }

theorem u64_of {n : Nat} (h : decide (n < 2 ^ 64) = true) : U64Ok n := of_decide_eq_true h
theorem i32_of {i : Int} (h : decide (-2 ^ 31 ≤ i ∧ i < 2 ^ 31) = true) : I32Ok i := of_decide_eq_true h

theorem blockReq_ok (k : Nat) (bs : List Byte) : ReqOk (dict k) (blockReq bs) := by
  refine ⟨i32_of rfl, i32_of rfl, u64_of rfl, u64_of rfl, u64_of rfl, u64_of rfl, ?_, .inl rfl, rfl, ?_, fun _ h => (by cases h)⟩
  · intro e he; rw [List.mem_singleton.1 he]; exact ⟨by decide, trivial⟩
  · intro q hq
    cases hq
    have hc : ∀ s ∈ [(⟨1, 1⟩ : Raft.SrvCfg), ⟨2, 2⟩], I32Ok s.id := by decide
    exact ⟨⟨u64_of rfl, u64_of rfl, u64_of rfl, dict_conf k (u64_of rfl) (u64_of rfl) hc, u64_of rfl⟩, _,
      List.mem_singleton.2 rfl, rfl⟩

theorem blockReq_size (k : Nat) (bs : List Byte) : reqSize (dict k) (blockReq bs) = 13 + (24 + 35 + 9 + bs.length) := rfl

/-- A block left at its start is received as it was sent. -/
example (rest : List Byte) : ∃ w b s w' s', wire (dict 0) 0 (blockReq [5, 6, 7]) = .ok w ∧ Rpc.encodeReq 0 w = .ok b ∧
    Rpc.Session.new 9 = .ok s ∧ Rpc.receive 9 s (b.content ++ rest) = .request w' s' rest ∧
    unwire (dict 0) 9 w' = .ok (blockReq [5, 6, 7]) :=
  sent_received_partial (dict 0) 0 9 _ (blockReq_ok 0 _) (fun _ _ => rfl) (by rw [blockReq_size]; decide) rest

/-- C87 fails: a state machine that fills the buffer with three `put` calls leaves it at position 3, and an empty block is received. -/
theorem block_lost (rest : List Byte) : ∃ w b s w' s', wire (dict 3) 0 (blockReq [5, 6, 7]) = .ok w ∧ Rpc.encodeReq 0 w = .ok b ∧
    Rpc.Session.new 9 = .ok s ∧ Rpc.receive 9 s (b.content ++ rest) = .request w' s' rest ∧
    unwire (dict 3) 9 w' = .ok (blockReq []) :=
  block_cut (dict 3) 0 9 (blockReq [5, 6, 7]) (blockReq_ok 3 _) (by rw [blockReq_size]; decide) rest

end Cs.Link
