import Verif.Codec.Props

/-!
# Decoding payloads, whatever bytes they have (C109)

Payloads come from other servers and from clients (raft_server_req_handlers.cxx 332, 488, 618) and out of the log (raft_server.cxx
565 and 923). Nothing checks them before they are decoded.
-/

namespace Cs.Codec
open Cs Cs.Buffer

/-! ## Specification vocabulary -/

/-- Four bytes for the id of a server, and no text of an address behind them: it is empty or does not end. -/
def Undescribed (t : List Byte) : Prop := 4 ≤ t.length ∧ (t[4]? = some 0 ∨ 0 ∉ t.drop 4)

/-- After `k` bytes, a number of servers and descriptions of some of them, but not of the next one. -/
def LacksServer (k : Nat) (t : List Byte) : Prop :=
  ∃ (hd : List Byte) (n : I32) (cs : List SrvConf) (bad : List Byte), hd.length = k ∧ t = hd ++ (le4 n ++ (serversBytes cs ++ bad)) ∧
    (∀ c ∈ cs, c.Valid) ∧ cs.length < n.toInt.toNat ∧ Undescribed bad

/-- What a decoder does with the bytes of a buffer from its position on: it gives an object made of the first of these bytes and leaves the
buffer behind them, or it throws, or (only if the bytes are bad in this way) its behaviour is undefined. -/
def Decodes {α : Type} (m : BM α) (Made : α → List Byte → Prop) (Bad : List Byte → Prop) : Prop :=
  ∀ b, Reach b →
    (∃ a bs b', m b = (.ok a, b') ∧ Reach b' ∧ b.content = bs ++ b'.content ∧ Made a bs) ∨
    ((m b).1 = .error .thrown) ∨
    ((m b).1 = .error .ub ∧ Bad b.content)

/-! ## Decoders one after the other -/

/-- `Decodes`, with what is before the position. -/
def Dec {α : Type} (m : BM α) (Made : α → List Byte → Prop) (Bad : List Byte → Prop) : Prop :=
  ∀ b pre t, Rd b pre t →
    (∃ a bs rest b', m b = (.ok a, b') ∧ t = bs ++ rest ∧ Rd b' (pre ++ bs) rest ∧ Made a bs) ∨
    ((m b).1 = .error .thrown) ∨
    ((m b).1 = .error .ub ∧ Bad t)

theorem Dec.decodes {α : Type} {m : BM α} {Made : α → List Byte → Prop} {Bad : List Byte → Prop} (h : Dec m Made Bad) :
    Decodes m Made Bad := by
  intro b hb
  obtain ⟨pre, hr⟩ := rd_of_reach hb
  rcases h b pre _ hr with ⟨a, bs, rest, b', h1, h2, h3, h4⟩ | h | h
  · exact .inl ⟨a, bs, b', h1, Rd.reach h3, by rw [Rd.content h3]; exact h2, h4⟩
  · exact .inr (.inl h)
  · exact .inr (.inr h)

theorem bind_err_fst {α β : Type} {m : BM α} {k : α → BM β} {b : Buf} {f : Fault} (h : (m b).1 = .error f) :
    ((m >>= k) b).1 = .error f := by
  have e : m b = (.error f, (m b).2) := Prod.ext h rfl
  rw [run_bind_err e]

theorem Dec.bind {α β : Type} {m : BM α} {k : α → BM β} {M1 : α → List Byte → Prop} {M2 : α → β → List Byte → Prop}
    {B1 : List Byte → Prop} {B2 : α → List Byte → Prop} (h1 : Dec m M1 B1) (h2 : ∀ a, Dec (k a) (M2 a) (B2 a)) :
    Dec (m >>= k) (fun c bs => ∃ a b1 b2, bs = b1 ++ b2 ∧ M1 a b1 ∧ M2 a c b2)
      (fun t => B1 t ∨ ∃ a b1 t', t = b1 ++ t' ∧ M1 a b1 ∧ B2 a t') := by
  intro b pre t hr
  rcases h1 b pre t hr with ⟨a, bs, rest, b', e1, e2, e3, e4⟩ | h | ⟨h, hb⟩
  · rw [run_bind_ok e1]
    rcases h2 a b' _ _ e3 with ⟨c, bs', rest', b'', f1, f2, f3, f4⟩ | h | ⟨h, hb⟩
    · refine .inl ⟨c, bs ++ bs', rest', b'', f1, by rw [e2, f2, List.append_assoc], by rw [← List.append_assoc]; exact f3, ?_⟩
      exact ⟨a, bs, bs', rfl, e4, f4⟩
    · exact .inr (.inl h)
    · exact .inr (.inr ⟨h, .inr ⟨a, bs, rest, e2, e4, hb⟩⟩)
  · exact .inr (.inl (bind_err_fst h))
  · exact .inr (.inr ⟨bind_err_fst h, .inl hb⟩)

theorem Dec.mono {α : Type} {m : BM α} {M1 M2 : α → List Byte → Prop} {B1 B2 : List Byte → Prop} (h : Dec m M1 B1)
    (hm : ∀ a bs, M1 a bs → M2 a bs) (hb : ∀ t, B1 t → B2 t) : Dec m M2 B2 := by
  intro b pre t hr
  rcases h b pre t hr with ⟨a, bs, rest, b', e1, e2, e3, e4⟩ | h | ⟨h, e⟩
  · exact .inl ⟨a, bs, rest, b', e1, e2, e3, hm _ _ e4⟩
  · exact .inr (.inl h)
  · exact .inr (.inr ⟨h, hb t e⟩)

theorem Dec.pure {α : Type} (a : α) : Dec (pure a : BM α) (fun c bs => c = a ∧ bs = []) (fun _ => False) := by
  intro b pre t hr
  exact .inl ⟨a, [], t, b, rfl, rfl, by rw [List.append_nil]; exact hr, rfl, rfl⟩

theorem dec_int : Dec getInt (fun v bs => bs = le4 v) (fun _ => False) := by
  intro b pre t hr
  by_cases hl : 4 ≤ t.length
  · obtain ⟨v, hv⟩ := exists_le4 (t.take 4) (by rw [List.length_take]; omega)
    have ht : t = le4 v ++ t.drop 4 := by rw [← hv, List.take_append_drop]
    rw [ht] at hr
    obtain ⟨b', h1, h2⟩ := Rd.getInt v hr
    exact .inl ⟨v, le4 v, t.drop 4, b', h1, ht, h2, rfl⟩
  · refine .inr (.inl ?_)
    rw [getInt_short hr (by rw [List.length_append]; omega)]

theorem dec_ulong : Dec getULong (fun v bs => bs = le8 v) (fun _ => False) := by
  intro b pre t hr
  by_cases hl : 8 ≤ t.length
  · obtain ⟨v, hv⟩ := exists_le8 (t.take 8) (by rw [List.length_take]; omega)
    have ht : t = le8 v ++ t.drop 8 := by rw [← hv, List.take_append_drop]
    rw [ht] at hr
    obtain ⟨b', h1, h2⟩ := Rd.getULong v hr
    exact .inl ⟨v, le8 v, t.drop 8, b', h1, ht, h2, rfl⟩
  · refine .inr (.inl ?_)
    rw [getULong_short hr (by rw [List.length_append]; omega)]

theorem dec_byte : Dec getByte (fun v bs => bs = [v]) (fun _ => False) := by
  intro b pre t hr
  cases t with
  | nil =>
    refine .inr (.inl ?_)
    rw [getByte_short hr (by rw [List.length_append]; simp)]
  | cons v t =>
    obtain ⟨b', h1, h2⟩ := Rd.getByte hr
    exact .inl ⟨v, [v], t, b', h1, rfl, h2, rfl⟩

/-! ## Texts -/

theorem nulRun_full : ∀ {t : List Byte}, nulRun t = t.length → 0 ∉ t
  | [], _ => by simp
  | c :: t, h => by
    rw [nulRun] at h
    split at h
    · cases h
    · rename_i hc
      have := nulRun_full (t := t) (by simpa using h)
      intro hm
      rcases List.mem_cons.mp hm with e | hm
      · exact hc e.symm
      · exact this hm

theorem nulRun_split : ∀ {t : List Byte}, nulRun t < t.length →
    ∃ s rest, t = s ++ 0 :: rest ∧ (∀ x ∈ s, x ≠ 0) ∧ s.length = nulRun t
  | [], h => by simp at h
  | c :: t, h => by
    rw [nulRun] at h ⊢
    by_cases hc : c = 0
    · rw [if_pos hc]
      exact ⟨[], t, by rw [hc]; rfl, by simp, rfl⟩
    · rw [if_neg hc] at h ⊢
      obtain ⟨s, rest, h1, h2, h3⟩ := nulRun_split (t := t) (by simpa using h)
      refine ⟨c :: s, rest, by rw [h1]; rfl, ?_, by rw [List.length_cons, h3]⟩
      intro x hx
      rcases List.mem_cons.mp hx with rfl | hx
      · exact hc
      · exact h2 x hx

/-- `get_str`: a text with its end, or nothing. -/
theorem str_cases {b : Buf} {pre t : List Byte} (h : Rd b pre t) :
    (∃ s rest b', s ≠ [] ∧ (∀ x ∈ s, x ≠ 0) ∧ t = (s ++ [0]) ++ rest ∧ getStr b = (.ok (some s), b') ∧ Rd b' (pre ++ (s ++ [0])) rest) ∨
    (getStr b = (.ok none, b) ∧ (t[0]? = some 0 ∨ 0 ∉ t)) := by
  by_cases hz : nulRun t < t.length
  · obtain ⟨s, rest, h1, h2, h3⟩ := nulRun_split hz
    by_cases hs : s = []
    · subst hs
      refine .inr ⟨?_, .inl (by rw [h1]; rfl)⟩
      rw [getStr_run h, List.drop_left, if_pos (.inr (by rw [← h3]; rfl))]
    · rw [h1] at h
      obtain ⟨b', h4, h5⟩ := Rd.getStr s hs h2 h
      exact .inl ⟨s, rest, b', hs, h2, by rw [h1]; simp, h4, h5⟩
  · have hle := nulRun_le t
    refine .inr ⟨?_, .inr (nulRun_full (by omega))⟩
    rw [getStr_run h, List.drop_left, if_pos (.inl (by rw [List.length_append]; omega))]

/-! ## Servers and configurations -/

/-- The part of `srv_config::deserialize` after the id. -/
def srvTail (id : I32) : BM SrvConf := do
  let endpoint ← getStr
  match endpoint with
  | none => throw .ub
  | some s => pure { id := id, endpoint := s }

theorem dec_srvTail (id : I32) : Dec (srvTail id) (fun c bs => c.Valid ∧ c.id = id ∧ bs = c.endpoint ++ [0])
    (fun t => t[0]? = some 0 ∨ 0 ∉ t) := by
  intro b pre t hr
  rcases str_cases hr with ⟨s, rest', b2, h1, h2, h3, h4, h5⟩ | ⟨h1, h2⟩
  · refine .inl ⟨⟨id, s⟩, s ++ [0], rest', b2, ?_, h3, h5, ⟨h1, h2⟩, rfl, rfl⟩
    rw [srvTail, run_bind_ok h4]; rfl
  · refine .inr (.inr ⟨?_, h2⟩)
    rw [srvTail, run_bind_ok h1]; rfl

theorem dec_srv : Dec SrvConf.deserialize (fun c bs => c.Valid ∧ bs = c.bytes) Undescribed := by
  have h := dec_int.bind dec_srvTail
  refine Dec.mono (m := SrvConf.deserialize) h ?_ ?_
  · rintro c bs ⟨id, _, _, rfl, rfl, hv, rfl, rfl⟩
    exact ⟨hv, rfl⟩
  · rintro t (h | ⟨id, _, t', rfl, rfl, h⟩)
    · exact h.elim
    · refine ⟨by rw [List.length_append, le4_length]; omega, ?_⟩
      rw [List.drop_left' (le4_length id)]
      rcases h with h | h
      · refine .inl ?_
        rw [List.getElem?_append_right (by rw [le4_length]; omega), le4_length]
        exact h
      · exact .inr h

theorem dec_servers : ∀ n : Nat, Dec (deserializeServers n)
    (fun cs bs => cs.length = n ∧ (∀ c ∈ cs, c.Valid) ∧ bs = serversBytes cs)
    (fun t => ∃ cs bad, t = serversBytes cs ++ bad ∧ (∀ c ∈ cs, c.Valid) ∧ cs.length < n ∧ Undescribed bad)
  | 0 => by
    refine (Dec.pure []).mono ?_ (fun _ h => h.elim)
    rintro a bs ⟨rfl, rfl⟩
    exact ⟨rfl, by simp, rfl⟩
  | n + 1 => by
    have h := dec_srv.bind fun s => (dec_servers n).bind fun ss => Dec.pure (s :: ss)
    refine Dec.mono (m := deserializeServers (n + 1)) h ?_ ?_
    · rintro a bs ⟨c, b1, b2, rfl, ⟨hv, rfl⟩, cs, b3, b4, rfl, ⟨h1, h2, rfl⟩, rfl, rfl⟩
      refine ⟨by rw [List.length_cons, h1], ?_, ?_⟩
      · intro x hx
        rcases List.mem_cons.mp hx with rfl | hx
        · exact hv
        · exact h2 x hx
      · rw [List.append_nil]; rfl
    · rintro t (h | ⟨c, b1, t', rfl, ⟨hv, rfl⟩, ⟨cs, bad, rfl, h1, h2, h3⟩ | ⟨_, _, _, _, _, h⟩⟩)
      · exact ⟨[], t, rfl, by simp, by simp, h⟩
      · refine ⟨c :: cs, bad, ?_, ?_, by rw [List.length_cons]; omega, h3⟩
        · show c.bytes ++ (serversBytes cs ++ bad) = (c.bytes ++ serversBytes cs) ++ bad
          rw [List.append_assoc]
        · intro x hx
          rcases List.mem_cons.mp hx with rfl | hx
          · exact hv
          · exact h1 x hx
      · exact h.elim

/-- A configuration is made of these bytes: the count, which tells how many descriptions follow, need not be the one that is written for
as many servers if it is negative. -/
def ClusterConf.MadeOf (c : ClusterConf) (bs : List Byte) : Prop :=
  (∀ s ∈ c.servers, s.Valid) ∧ ∃ n : I32, n.toInt.toNat = c.servers.length ∧
    bs = le8 c.logIdx ++ (le8 c.prevLogIdx ++ (le4 n ++ serversBytes c.servers))

theorem dec_conf : Dec ClusterConf.deserialize ClusterConf.MadeOf (LacksServer 16) := by
  have h := dec_ulong.bind fun i => dec_ulong.bind fun p => dec_int.bind fun n => (dec_servers n.toInt.toNat).bind fun ss =>
    Dec.pure ({ logIdx := i, prevLogIdx := p, servers := ss } : ClusterConf)
  refine Dec.mono (m := ClusterConf.deserialize) h ?_ ?_
  · rintro a bs ⟨i, _, _, rfl, rfl, p, _, _, rfl, rfl, n, _, _, rfl, rfl, ss, _, _, rfl, ⟨h1, h2, rfl⟩, rfl, rfl⟩
    exact ⟨h2, n, h1.symm, by rw [List.append_nil]⟩
  · rintro t (h | ⟨i, _, _, rfl, rfl, h | ⟨p, _, _, rfl, rfl, h | ⟨n, _, _, rfl, rfl, ⟨cs, bad, rfl, h1, h2, h3⟩ | ⟨_, _, _, _, _, h⟩⟩⟩⟩)
    · exact h.elim
    · exact h.elim
    · exact h.elim
    · exact ⟨le8 i ++ le8 p, n, cs, bad, rfl, by rw [List.append_assoc], h1, h2, h3⟩
    · exact h.elim

/-- A snapshot is made of these bytes. -/
def Snap.MadeOf (s : Snap) (bs : List Byte) : Prop :=
  ∃ cb, s.conf.MadeOf cb ∧ bs = le8 s.lastIdx ++ (le8 s.lastTerm ++ (le8 s.size ++ cb))

theorem LacksServer.after {k : Nat} {t : List Byte} (hd : List Byte) (h : LacksServer k t) : LacksServer (hd.length + k) (hd ++ t) := by
  obtain ⟨hd', n, cs, bad, h1, h2, h3⟩ := h
  exact ⟨hd ++ hd', n, cs, bad, by rw [List.length_append, h1], by rw [h2, List.append_assoc], h3⟩

theorem dec_snap : Dec Snap.deserialize Snap.MadeOf (LacksServer 40) := by
  have h := dec_ulong.bind fun i => dec_ulong.bind fun t => dec_ulong.bind fun z => dec_conf.bind fun c =>
    Dec.pure ({ lastIdx := i, lastTerm := t, size := z, conf := c } : Snap)
  refine Dec.mono (m := Snap.deserialize) h ?_ ?_
  · rintro a bs ⟨i, _, _, rfl, rfl, p, _, _, rfl, rfl, n, _, _, rfl, rfl, ss, _, _, rfl, hm, rfl, rfl⟩
    exact ⟨_, hm, by rw [List.append_nil]⟩
  · rintro t (h | ⟨i, _, _, rfl, rfl, h | ⟨p, _, _, rfl, rfl, h | ⟨n, _, _, rfl, rfl, h | ⟨_, _, _, _, _, h⟩⟩⟩⟩)
    · exact h.elim
    · exact h.elim
    · exact h.elim
    · have := h.after (le8 i ++ (le8 p ++ le8 n))
      simpa [List.append_assoc] using this
    · exact h.elim

/-- A block of a snapshot is made of these bytes; it is all of them. -/
def SnapReq.MadeOf (q : SnapReq) (bs : List Byte) : Prop :=
  ∃ sb d, q.snap.MadeOf sb ∧ (q.done = true ↔ d = 1) ∧ bs = sb ++ (le8 q.offset ++ (d :: q.data.content)) ∧ Reach q.data ∧ q.data.pos = 0

/-- A log entry is made of these bytes; it is all of them. -/
def LogEntry.MadeOf (e : LogEntry) (bs : List Byte) : Prop :=
  ∃ b, e.buff = some b ∧ bs = le8 e.term ++ (e.vtype :: b.content) ∧ Reach b ∧ b.pos = 0

/-- What a decoder does that takes all bytes from the position of the buffer on. -/
def DecodesAll {α : Type} (m : BM α) (Made : α → List Byte → Prop) (Bad : List Byte → Prop) : Prop :=
  ∀ b, Reach b → (∃ a, (m b).1 = .ok a ∧ Made a b.content) ∨ (m b).1 = .error .thrown ∨ ((m b).1 = .error .ub ∧ Bad b.content)

theorem all_req (junk : Byte) : DecodesAll (SnapReq.deserialize junk) SnapReq.MadeOf (LacksServer 40) := by
  intro b hb
  obtain ⟨pre, hr⟩ := rd_of_reach hb
  rcases dec_snap b pre _ hr with ⟨s, bs, t1, b1, e1, e2, w1, hm⟩ | h | ⟨h, hbad⟩
  · rw [SnapReq.deserialize, run_bind_ok e1]
    rcases dec_ulong b1 _ _ w1 with ⟨o, _, t2, b2, e3, e4, w2, rfl⟩ | h | ⟨_, h⟩
    · rw [run_bind_ok e3]
      rcases dec_byte b2 _ _ w2 with ⟨d, _, t3, b3, e5, e6, w3, rfl⟩ | h | ⟨_, h⟩
      · refine .inl ?_
        have hc : b.content = bs ++ (le8 o ++ (d :: t3)) := by rw [e2, e4, e6]; rfl
        have hd : ((d == 1) = true ↔ d = 1) := beq_iff_eq
        have hpos : b3.pos < b3.size ↔ t3 ≠ [] := by
          rw [At.pos w3, At.size w3, List.length_append (bs := t3), ← List.length_pos_iff]; omega
        rw [run_bind_ok e5, run_bind_ok (run_get b3)]
        by_cases hne : t3 = []
        · obtain ⟨b0, h0, w0⟩ := Rd.alloc junk (n := 0) (by decide)
          refine ⟨{ snap := s, offset := o, data := b0, done := d == 1 }, ?_, bs, d, hm, hd, ?_, w0.reach, ?_⟩
          · rw [run_ite, if_neg (by rw [hpos]; simpa using hne), h0, run_bind_ok (run_liftExcept_ok _ _)]
            rfl
          · rw [hc, Rd.content w0, hne]; rfl
          · exact At.pos w0
        · have hlen : t3.length < 2 ^ 31 := by have := w3.lt; omega
          obtain ⟨b0, h0, w0⟩ := Rd.alloc junk hlen
          have hrd := readAt_ok w3 (off := 0) (len := t3.length) (by simp; omega)
          simp only [Nat.add_zero, List.drop_left, List.take_length] at hrd
          have w4 : Rd { b0 with data := t3 } [] t3 := Rd.fillAll w0 (by simp)
          refine ⟨{ snap := s, offset := o, data := { b0 with data := t3 }, done := d == 1 }, ?_, bs, d, hm, hd, ?_, w4.reach, ?_⟩
          · rw [run_ite, if_pos (by rw [hpos]; exact hne), Rd.avail w3, run_bind_ok hrd, h0, run_bind_ok (run_liftExcept_ok _ _)]
            rfl
          · rw [hc, Rd.content w4]
          · exact At.pos w4
      · exact .inr (.inl (bind_err_fst h))
      · exact h.elim
    · exact .inr (.inl (bind_err_fst h))
    · exact h.elim
  · exact .inr (.inl (bind_err_fst h))
  · exact .inr (.inr ⟨bind_err_fst h, hbad⟩)

theorem all_entry (junk : Byte) : DecodesAll (LogEntry.deserialize junk) LogEntry.MadeOf (fun _ => False) := by
  intro b hb
  obtain ⟨pre, hr⟩ := rd_of_reach hb
  rcases dec_ulong b pre _ hr with ⟨o, _, t2, b2, e3, e4, w2, rfl⟩ | h | ⟨_, h⟩
  · rw [LogEntry.deserialize, run_bind_ok e3]
    rcases dec_byte b2 _ _ w2 with ⟨d, _, t3, b3, e5, e6, w3, rfl⟩ | h | ⟨_, h⟩
    · obtain ⟨c, h1, w4⟩ := Rd.copy junk w3
      refine .inl ⟨{ term := o, vtype := d, buff := some c }, ?_, c, rfl, ?_, w4.reach, At.pos w4⟩
      · rw [run_bind_ok e5, run_bind_ok (run_get b3), h1, run_bind_ok (run_liftExcept_ok _ _)]
        rfl
      · rw [e4, e6, Rd.content w4]; rfl
    · exact .inr (.inl (bind_err_fst h))
    · exact h.elim
  · exact .inr (.inl (bind_err_fst h))
  · exact h.elim

/-! ## The property -/

/-- **C109, partial**: whatever bytes a payload has, decoding it gives an object made of these bytes or an exception, unless the bytes are
of a server without a text for its address. What is missing: these bytes, see `lacking_server_undefined`. -/
theorem decoding_harmless_partial (junk : Byte) :
    Decodes SrvConf.deserialize (fun c bs => c.Valid ∧ bs = c.bytes) Undescribed ∧
    Decodes ClusterConf.deserialize ClusterConf.MadeOf (LacksServer 16) ∧
    Decodes Snap.deserialize Snap.MadeOf (LacksServer 40) ∧
    DecodesAll (SnapReq.deserialize junk) SnapReq.MadeOf (LacksServer 40) ∧
    DecodesAll (LogEntry.deserialize junk) LogEntry.MadeOf (fun _ => False) :=
  ⟨dec_srv.decodes, dec_conf.decodes, dec_snap.decodes, all_req junk, all_entry junk⟩

/-! ### The bytes that do harm -/

theorem Undescribed.cases {t : List Byte} (h : Undescribed t) :
    ∃ (id : I32) (u : List Byte), t = le4 id ++ u ∧ (u[0]? = some 0 ∨ 0 ∉ u) := by
  obtain ⟨hl, h⟩ := h
  obtain ⟨v, hv⟩ := exists_le4 (t.take 4) (by rw [List.length_take]; omega)
  refine ⟨v, t.drop 4, by rw [← hv, List.take_append_drop], ?_⟩
  rcases h with h | h
  · exact .inl (by rw [List.getElem?_drop]; exact h)
  · exact .inr h

theorem described_not {s rest u : List Byte} (h2 : s ≠ []) (h3 : ∀ x ∈ s, x ≠ 0) (h4 : u = (s ++ [0]) ++ rest) :
    ¬ (u[0]? = some 0 ∨ 0 ∉ u) := by
  subst h4
  rintro (h | h)
  · match s, h2, h3, h with
    | x :: s, _, h3, h => exact h3 x (by simp) (by simpa using h)
  · exact h (by simp)

theorem srv_undefined {b : Buf} {pre t : List Byte} (hr : Rd b pre t) (h : Undescribed t) : (SrvConf.deserialize b).1 = .error .ub := by
  obtain ⟨id, u, rfl, hu⟩ := h.cases
  obtain ⟨b', h1, w⟩ := Rd.getInt id hr
  have e : SrvConf.deserialize b = srvTail id b' := by
    show (getInt >>= srvTail) b = _
    rw [run_bind_ok h1]
  rw [e]
  rcases str_cases w with ⟨s, rest, b2, h2, h3, h4, -⟩ | ⟨h2, -⟩
  · exact (described_not h2 h3 h4 hu).elim
  · rw [srvTail, run_bind_ok h2]; rfl

theorem servers_undefined : ∀ (cs : List SrvConf) (n : Nat) {b : Buf} {pre bad : List Byte}, Rd b pre (serversBytes cs ++ bad) →
    (∀ c ∈ cs, c.Valid) → cs.length < n → Undescribed bad → (deserializeServers n b).1 = .error .ub
  | [], n + 1, b, pre, bad, hr, _, _, hu => by
    rw [deserializeServers]
    exact bind_err_fst (srv_undefined (t := bad) hr hu)
  | c :: cs, n + 1, b, pre, bad, hr, hv, hn, hu => by
    have hr' : Rd b pre (c.bytes ++ (serversBytes cs ++ bad)) := by
      rw [← List.append_assoc]; exact hr
    obtain ⟨b', h1, w⟩ := SrvConf.deserialize_ok c (hv c (by simp)) hr'
    rw [deserializeServers, run_bind_ok h1]
    exact bind_err_fst (servers_undefined cs n w (fun x hx => hv x (by simp [hx])) (by simpa using hn) hu)

theorem split_le8 {t : List Byte} {k : Nat} (h : t.length = k + 8) : ∃ (v : U64) (u : List Byte), t = le8 v ++ u ∧ u.length = k := by
  obtain ⟨v, hv⟩ := exists_le8 (t.take 8) (by rw [List.length_take]; omega)
  exact ⟨v, t.drop 8, by rw [← hv, List.take_append_drop], by rw [List.length_drop]; omega⟩

theorem conf_undefined {b : Buf} {pre t : List Byte} (hr : Rd b pre t) (h : LacksServer 16 t) :
    (ClusterConf.deserialize b).1 = .error .ub := by
  obtain ⟨hd, n, cs, bad, h1, rfl, h2, h3, h4⟩ := h
  obtain ⟨i, u, rfl, k1⟩ := split_le8 (k := 8) h1
  obtain ⟨p, v, rfl, k2⟩ := split_le8 (k := 0) k1
  have : v = [] := List.eq_nil_of_length_eq_zero k2
  subst this
  rw [List.append_nil, List.append_assoc] at hr
  obtain ⟨b1, e1, w1⟩ := Rd.getULong i hr
  obtain ⟨b2, e2, w2⟩ := Rd.getULong p w1
  obtain ⟨b3, e3, w3⟩ := Rd.getInt n w2
  rw [ClusterConf.deserialize, run_bind_ok e1, run_bind_ok e2, run_bind_ok e3]
  exact bind_err_fst (servers_undefined cs _ w3 h2 h3 h4)

theorem snap_undefined {b : Buf} {pre t : List Byte} (hr : Rd b pre t) (h : LacksServer 40 t) :
    (Snap.deserialize b).1 = .error .ub := by
  obtain ⟨hd, n, cs, bad, h1, rfl, h2⟩ := h
  obtain ⟨i, u1, rfl, k1⟩ := split_le8 (k := 32) h1
  obtain ⟨p, u2, rfl, k2⟩ := split_le8 (k := 24) k1
  obtain ⟨z, u, rfl, k3⟩ := split_le8 (k := 16) k2
  rw [List.append_assoc, List.append_assoc, List.append_assoc] at hr
  obtain ⟨b1, e1, w1⟩ := Rd.getULong i hr
  obtain ⟨b2, e2, w2⟩ := Rd.getULong p w1
  obtain ⟨b3, e3, w3⟩ := Rd.getULong z w2
  rw [Snap.deserialize, run_bind_ok e1, run_bind_ok e2, run_bind_ok e3]
  exact bind_err_fst (conf_undefined w3 ⟨u, n, cs, bad, k3, rfl, h2⟩)

/-- C109 is false: all the bytes that `decoding_harmless_partial` leaves out do harm. Four bytes sent as the description of a server to be
added are enough. -/
theorem lacking_server_undefined (junk : Byte) (b : Buf) (hb : Reach b) :
    (Undescribed b.content → (SrvConf.deserialize b).1 = .error .ub) ∧
    (LacksServer 16 b.content → (ClusterConf.deserialize b).1 = .error .ub) ∧
    (LacksServer 40 b.content → (Snap.deserialize b).1 = .error .ub ∧ (SnapReq.deserialize junk b).1 = .error .ub) := by
  obtain ⟨pre, hr⟩ := rd_of_reach hb
  refine ⟨srv_undefined hr, conf_undefined hr, fun h => ⟨snap_undefined hr h, ?_⟩⟩
  rw [SnapReq.deserialize]
  exact bind_err_fst (snap_undefined hr h)

/-- Such bytes: an id alone, and a configuration that announces one server and ends there after its id. -/
example : Undescribed [1, 0, 0, 0] ∧
    LacksServer 16 [0, 0, 0, 0, 0, 0, 0, 0, 0, 0, 0, 0, 0, 0, 0, 0, 1, 0, 0, 0, 7, 0, 0, 0] :=
  ⟨⟨by decide, .inr (by decide)⟩,
    ⟨List.replicate 16 0, 1#32, [], [7, 0, 0, 0], by decide, by decide, by simp, by decide, by decide, .inr (by decide)⟩⟩

/-- A payload that decodes: one server with the address "a", after a position that is not the begin. -/
example : ∃ b, Reach b ∧ b.pos = 0 ∧ b.content = [1, 0, 0, 0, 97, 0] ∧ (SrvConf.deserialize b).1 = .ok ⟨1#32, [97]⟩ := by
  obtain ⟨b, h1, h2⟩ := SrvConf.serialize_ok 0 ⟨1#32, [97]⟩ (by decide)
  have hd := SrvConf.deserialize_ok (rest := []) ⟨1#32, [97]⟩ ⟨by decide, by decide⟩ (by rw [List.append_nil]; exact h2)
  obtain ⟨r, h3, -⟩ := hd
  exact ⟨b, Rd.reach h2, At.pos h2, by rw [Rd.content h2]; decide, by rw [h3]⟩

end Cs.Codec
