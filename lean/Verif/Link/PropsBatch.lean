import Verif.Link.PropsServer
import Verif.Raft.Few
import Verif.Raft.PropsCatch

/-!
# C88: what a leader sends is small enough to be received

A session closes the connection when a request announces more than 16 MiB of entries (C10). Leaders limit the number of entries of a
request, not their size.
-/

namespace Cs.Raft
open Cs

/-- The parameters of a server are those it was started with. -/
def Node.Par (c : Setup) (n : Node) : Prop := ∀ s, n.up = some s → s.params = c.params

/-- In any history the requests have no more entries than the parameters say. -/
theorem Hist.few {c : Setup} {n n' : Node} {xs : List Input} {fx : List Eff} (h : Hist c n xs fx n') (hn : n.Par c)
    (hx : ∀ r, .retry r ∈ xs → r.Few c.params) : n'.Par c ∧ ∀ r, .send r ∈ fx → r.Few c.params := by
  induction h with
  | nil => exact ⟨hn, fun _ h => (by cases h)⟩
  | @step n1 n2 xs fx es x h1 hs ih =>
    obtain ⟨a1, a2⟩ := ih fun r hr => hx r (List.mem_append_left _ hr)
    have key : ∀ (s : Srv) (i : Input), n1.up = some s → x = some i →
        (i.run { s with trace := [] }).2.params = c.params ∧ ∀ r, .send r ∈ (i.run { s with trace := [] }).2.trace → r.Few c.params := by
      intro s i h1 h2
      obtain ⟨b1, es, b2, b3⟩ := fw_run (x := i) (p := c.params) (fun r hr => hx r (List.mem_append_right _ (by rw [h2, hr]; simp)))
        { s with trace := [] } (a1 s h1)
      have hp : s.params = c.params := a1 s h1
      refine ⟨b1.trans hp, fun r hr => ?_⟩
      rw [b2] at hr
      have := b3 r hr
      rw [show ({ s with trace := [] } : Srv).params = c.params from hp] at this
      exact this
    have fin : ∀ {m : Node}, m.Par c → (∀ r, .send r ∈ es → r.Few c.params) → m.Par c ∧ ∀ r, .send r ∈ fx ++ es → r.Few c.params :=
      fun h1 h2 => ⟨h1, fun r hr => (List.mem_append.1 hr).elim (a2 r) (h2 r)⟩
    cases hs with
    | run hr =>
      have := key _ _ rfl rfl
      rw [hr] at this
      exact fin (fun s hs => by cases hs; exact this.1) this.2
    | survive hr =>
      have := key _ _ rfl rfl
      rw [hr] at this
      exact fin (fun s hs => by cases hs; exact this.1) this.2
    | crash hp =>
      have := (key _ _ rfl rfl).2
      exact fin (fun s hs => (by cases hs)) fun r hr => this r (hp.subset hr)
    | boot => exact fin (fun s hs => by cases hs; rfl) fun _ h => (by cases h)

/-! ## The same request again -/

/-- A leader with this log, parameters and next index for member `k`. -/
def Leads (l : Log) (pr : Params) (k : Int) (m : Nat) (s : Srv) : Prop :=
  s.role = .leader ∧ s.log = l ∧ s.params = pr ∧ ∃ p, s.findPeer k = some p ∧ p.nextIdx = m

theorem Leads.setPeer {l : Log} {pr : Params} {k : Int} {m : Nat} {s : Srv} (h : Leads l pr k m s) (f : Peer → Peer)
    (hf : ∀ p, (f p).id = p.id) (hn : ∀ p, p.nextIdx = m → (f p).nextIdx = m) : Leads l pr k m (s.setPeer (.member k) f) := by
  obtain ⟨h1, h2, h3, p, h4, h5⟩ := h
  exact ⟨h1, h2, h3, f p, by rw [find_setPeer _ _ _ hf, h4]; rfl, hn p h5⟩

/-- A request to `k` fails. -/
theorem failed_run {l : Log} {pr : Params} {k : Int} {m : Nat} {s : Srv} (h : Leads l pr k m s) {q : Req} (hq : q.dst = k)
    (ht : q.type = .appendReq) : ∃ s', (Input.peerErr q).run s = (.ok ⟨⟩, s') ∧ Leads l pr k m s' ∧ s'.trace = s.trace ∧
      ∃ p, s'.findPeer k = some p ∧ p.busy = false := by
  have hrun : (Input.peerErr q).run s = (.ok ⟨⟩, (s.setPeer (.member k) fun p => if q.type = .appendReq ∨ q.type = .snpReq
      then { p with busy := false } else p).setPeer (.member k) (slowDownHb s.params)) := by
    show rpcResult (.member q.dst) q.type false s = _
    rw [hq]
    rfl
  refine ⟨_, hrun, (h.setPeer _ ?_ ?_).setPeer _ (fun _ => rfl) (fun _ h => h), rfl, ?_⟩
  · intro p; split <;> rfl
  · intro p hp; split <;> exact hp
  · obtain ⟨_, _, _, p, h4, _⟩ := h
    refine ⟨slowDownHb s.params { p with busy := false }, ?_, rfl⟩
    rw [find_setPeer _ _ _ (by intro p; rfl), find_setPeer _ _ _ (by intro p; split <;> rfl), h4]
    rw [Option.map_some, Option.map_some, if_pos (.inl ht)]

/-- The next heartbeat: the entries behind the next index are sent. -/
theorem resend_run {l : Log} {pr : Params} {k : Int} {m : Nat} {s : Srv} (h : Leads l pr k m s) (h1 : l.start = 1) (h2 : 0 < m)
    (h3 : m ≤ l.next) (hb : ∃ p, s.findPeer k = some p ∧ p.busy = false) :
    ∃ s' q, (Input.hbTimeout k).run s = (.ok ⟨⟩, s') ∧ Leads l pr k m s' ∧ s'.trace = s.trace ++ [.send q] ∧ q.dst = k ∧
      q.type = .appendReq ∧ q.entries = s.behind (m - 1) := by
  have hL0 := h.setPeer (fun p => { p with hbArmed := false }) (fun _ => rfl) (fun _ h => h)
  have hb0 : ∃ p, (s.setPeer (.member k) fun p => { p with hbArmed := false }).findPeer k = some p ∧ p.busy = false := by
    obtain ⟨p, hp, hp'⟩ := hb
    exact ⟨{ p with hbArmed := false }, by rw [find_setPeer _ _ _ (by intro p; rfl), hp]; rfl, hp'⟩
  have hbeh : (s.setPeer (.member k) fun p => { p with hbArmed := false }).behind (m - 1) = s.behind (m - 1) := rfl
  have htr : (s.setPeer (.member k) fun p => { p with hbArmed := false }).trace = s.trace := rfl
  have hrun : (Input.hbTimeout k).run s = (requestAppend (.member k) >>= fun _ =>
      modPeer (.member k) fun p => if p.hbEnabled then { p with hbArmed := true } else p)
        (s.setPeer (.member k) fun p => { p with hbArmed := false }) := by
    show handleHbTimeout (.member k) s = _
    unfold handleHbTimeout
    rw [bind_modPeer, bind_get, if_pos hL0.1]
  generalize (s.setPeer (.member k) fun p => { p with hbArmed := false }) = s1 at hL0 hb0 hbeh htr hrun
  obtain ⟨p1, hp1, hp2⟩ := hb0
  have hL1 := hL0.setPeer (fun p => { p with busy := true }) (fun _ => rfl) (fun _ h => h)
  have hbeh1 : (s1.setPeer (.member k) fun p => { p with busy := true }).behind (m - 1) = s1.behind (m - 1) := rfl
  have htr1 : (s1.setPeer (.member k) fun p => { p with busy := true }).trace = s1.trace := rfl
  have hreq : requestAppend (.member k) s1 = (createAppendReq (.member k) >>= fun r => emit (.send r) >>= fun _ => pure true)
      (s1.setPeer (.member k) fun p => { p with busy := true }) := by
    unfold requestAppend
    rw [run_bind_ok (getPeer_some (show s1.peer (.member k) = some p1 from hp1)), hp2, if_neg (by decide), bind_modPeer]
  generalize (s1.setPeer (.member k) fun p => { p with busy := true }) = s2 at hL1 hbeh1 htr1 hreq
  obtain ⟨g1, g2, g3, p2, g4, g5⟩ := hL1
  obtain ⟨q, c1, c2, c3⟩ := createAppend_run (s := s2) (k := k) (by rw [g2]; exact h1) g4 (by rw [g5, g2]; exact h3)
  obtain ⟨d1, _, _, _, d2⟩ := c3 (by omega)
  rw [run_bind_ok c1, bind_emit] at hreq
  have hL3 : Leads l pr k m (s2.setPeer (.member k) fun p => if p.nextIdx = 0 then { p with nextIdx := s2.log.next } else p) :=
    Leads.setPeer ⟨g1, g2, g3, p2, g4, g5⟩ _ (by intro p; split <;> rfl) (by intro p hp; rw [if_neg (by omega)]; exact hp)
  have htr3 : (s2.setPeer (.member k) fun p => if p.nextIdx = 0 then { p with nextIdx := s2.log.next } else p).trace = s2.trace := rfl
  generalize (s2.setPeer (.member k) fun p => if p.nextIdx = 0 then { p with nextIdx := s2.log.next } else p) = s3 at hL3 htr3 hreq
  have hreq' : requestAppend (.member k) s1 = (.ok true, { s3 with trace := s3.trace ++ [.send q] }) := hreq
  have hL4 : Leads l pr k m { s3 with trace := s3.trace ++ [.send q] } := hL3
  rw [run_bind_ok hreq'] at hrun
  refine ⟨_, q, hrun, hL4.setPeer _ (by intro p; split <;> rfl) (by intro p hp; split <;> exact hp), ?_, c2, d1, ?_⟩
  · show s3.trace ++ [.send q] = _
    rw [htr3, htr1, htr]
  · rw [d2, g5, hbeh1, hbeh]

/-- `n` times: a request to `k` fails, and the heartbeat is sent. -/
def failures (k : Int) (q : Req) : Nat → List Input
  | 0 => []
  | n + 1 => failures k q n ++ [.peerErr q, .hbTimeout k]

/-- However often its requests to a member fail, a leader sends it the same entries again. -/
theorem sends_again {c : Setup} {n0 : Node} {xs : List Input} {fx : List Eff} {d : Disk} {L : Srv} (h : Hist c n0 xs fx ⟨d, some L⟩)
    {k : Int} {m : Nat} (hL : Leads L.log L.params k m L) (h1 : L.log.start = 1) (h2 : 0 < m) (h3 : m ≤ L.log.next) {q : Req}
    (hq : q.dst = k) (ht : q.type = .appendReq) (n : Nat) :
    ∃ fx' d' L', Hist c n0 (xs ++ failures k q n) (fx ++ fx') ⟨d', some L'⟩ ∧ Leads L.log L.params k m L' ∧ fx'.length = n ∧
      ∀ e ∈ fx', ∃ r, e = .send r ∧ r.dst = k ∧ r.type = .appendReq ∧ r.entries = L.behind (m - 1) := by
  induction n with
  | zero => exact ⟨[], d, L, by simpa [failures] using h, hL, rfl, fun _ h => (by cases h)⟩
  | succ n ih =>
    obtain ⟨fx', d', L', a1, a2, a3, a4⟩ := ih
    have b0 : Leads L.log L.params k m { L' with trace := [] } := a2
    obtain ⟨L1, b1, b2, b3, b4⟩ := failed_run b0 hq ht
    have c0 : Leads L.log L.params k m { L1 with trace := [] } := b2
    obtain ⟨L2, r, c1, c2, c3, c4, c5, c6⟩ := resend_run c0 h1 h2 h3 b4
    have s1 := Hist.step a1 (Node.Step.run b1)
    have s2 := Hist.step s1 (Node.Step.run c1)
    rw [b3, c3] at s2
    simp only [List.nil_append, List.append_nil] at s2
    have hh : ∃ d'', Hist c n0 (xs ++ failures k q (n + 1)) (fx ++ (fx' ++ [.send r])) ⟨d'', some L2⟩ :=
      ⟨_, by simpa [failures] using s2⟩
    obtain ⟨d'', hh⟩ := hh
    refine ⟨fx' ++ [.send r], d'', L2, hh, c2, by rw [List.length_append, a3]; rfl, ?_⟩
    · intro e he
      rcases List.mem_append.1 he with he | he
      · exact a4 e he
      · refine ⟨r, List.mem_singleton.1 he, c4, c5, ?_⟩
        rw [c6]
        obtain ⟨_, e2, e3, _⟩ := b2
        unfold Srv.behind
        rw [show ({ L1 with trace := [] } : Srv).log = L.log from e2, show ({ L1 with trace := [] } : Srv).params = L.params from e3]

end Cs.Raft

namespace Cs.Link
open Cs Cs.Buffer Cs.Codec

theorem sum_bound {α : Type} {f : α → Nat} {b : Nat} : ∀ {l : List α}, (∀ x ∈ l, f x ≤ b) → (l.map f).sum ≤ l.length * b
  | [], _ => Nat.zero_le _
  | x :: l, h => by
    have h1 := h x (List.mem_cons_self ..)
    have h2 := sum_bound (f := f) fun y hy => h y (List.mem_cons_of_mem _ hy)
    rw [List.map_cons, List.sum_cons, List.length_cons, Nat.succ_mul]
    omega

/-- C88 (partial): if `k` bytes are enough for every entry of the request and the parameter for the number of entries allows for `k`
bytes each, an append request is received by the other side as it was sent. Missing: larger entries; nothing in the server keeps an
application from them. -/
theorem batch_received_partial (D : Dict) (junk junk' : Byte) {c : Raft.Setup} {n n' : Raft.Node} {xs : List Raft.Input}
    {fx : List Raft.Eff} (h : Raft.Hist c n xs fx n') (hn : n.Shaped (SrvOk D)) (hp : n.Par c) (hx : ∀ x ∈ xs, x.Shaped (SrvOk D))
    (hx' : ∀ r, .retry r ∈ xs → r.Few c.params) {r : Raft.Req} (hr : .send r ∈ fx) (ht : r.type = .appendReq) (hf : Fits D r) {k : Nat}
    (hk : ∀ e ∈ r.entries, valSize D r e.val ≤ k) (hb : c.params.maxAppend * (13 + k) ≤ 0x1000000) (rest : List Byte) :
    ∃ w b s w' s', wire D junk r = .ok w ∧ Rpc.encodeReq junk w = .ok b ∧ Rpc.Session.new junk' = .ok s ∧
      Rpc.receive junk' s (b.content ++ rest) = .request w' s' rest ∧ unwire D junk' w' = .ok r := by
  have hs := (h.shaped hn hx).2 _ hr
  have hc := ((h.few hp hx').2 r hr).1
  rw [if_pos ht] at hc
  refine server_sent_received_partial D junk junk' h hn hx hr hf (fun q hq => ?_) ?_ rest
  · obtain ⟨_, e, he, hv⟩ := hs.sync q hq
    have := hs.entries e he
    rw [hv, ht] at this
    cases this
  · refine Nat.le_trans (sum_bound (b := 13 + k) fun e he => ?_) (Nat.le_trans (Nat.mul_le_mul_right _ hc) hb)
    have := hk e he
    omega

/-- Every session closes the connection on a request whose entries take more than 16 MiB. -/
theorem oversize_refused (D : Dict) (junk junk' : Byte) (r : Raft.Req) (hs : r.Shaped (SrvOk D)) (ht : r.type = .appendReq)
    (ha : ∀ e ∈ r.entries, ∀ d, e.val = .app d → Reach (D.command d)) (h1 : 0x1000000 < reqSize D r) (h2 : reqSize D r < 2 ^ 31 - 45)
    (rest : List Byte) :
    ∃ w b s, wire D junk r = .ok w ∧ Rpc.encodeReq junk w = .ok b ∧ Rpc.Session.new junk' = .ok s ∧
      Rpc.receive junk' s (b.content ++ rest) = .closed := by
  obtain ⟨w, w1, w2, w3, _⟩ := wire_ok junk r (fun q hq => by
    obtain ⟨_, e, he, hv⟩ := hs.sync q hq
    have := hs.entries e he
    rw [hv, ht] at this
    cases this) ha hs.block (by omega)
  obtain ⟨b, s, b1, b2, b3⟩ := Rpc.C10_limit junk junk' w w2 (by omega) (by omega) rest
  exact ⟨w, b, s, w1, b1, b2, b3⟩

/-! ## Concrete cases -/

/-- A dictionary whose command `n` has 9 MiB and `n` bytes. -/
def bigDict : Dict :=
  { dict 0 with
    command := (fun n => bufAt (List.replicate (9437184 + n) 7) 0)
    commandOf := (fun l => l.length - 9437184) }

theorem big_ok {n : Nat} (h : n < 2 ^ 30) : Reach (bigDict.command n) ∧ (bigDict.command n).data.length = 9437184 + n := by
  obtain ⟨h1, h2⟩ := bufAt_ok (bs := List.replicate (9437184 + n) 7) 0 (by rw [List.length_replicate]; omega)
  exact ⟨h1, by show (bufAt (List.replicate (9437184 + n) 7) 0).data.length = _; rw [h2, List.length_replicate]⟩

theorem big_srv {c : Raft.SrvCfg} (h : I32Ok c.id) : SrvOk bigDict c := by
  refine ⟨h, ⟨?_, ?_⟩, ?_⟩
  · show List.replicate (c.endpoint + 1) (97 : Byte) ≠ []
    simp
  · show ∀ x ∈ List.replicate (c.endpoint + 1) (97 : Byte), x ≠ 0
    intro x hx
    rw [(List.mem_replicate.1 hx).2]
    decide
  · show (List.replicate (c.endpoint + 1) (97 : Byte)).length - 1 = _
    simp

/-- Server 1 becomes leader and is given two commands. Server 2 answers to the first request. -/
def twoBig : List Raft.Move := Raft.electScript ++ [.go (.replicate 1), .go (.replicate 2), .go (Raft.appendRespOf 2 1 2)]

theorem twoBig_shaped (D : Dict) : ∀ x ∈ twoBig.flatMap Raft.Move.input, x.Shaped (SrvOk D) := by
  intro x hx
  simp only [twoBig, Raft.electScript, List.cons_append, List.nil_append, List.flatMap_cons, List.flatMap_nil, Raft.Move.input,
    List.mem_cons, List.not_mem_nil, or_false] at hx
  rcases hx with rfl | rfl | rfl | rfl | rfl | rfl | rfl <;> trivial

theorem failures_shaped (P : Raft.SrvCfg → Prop) (k : Int) (q : Raft.Req) : ∀ n, ∀ x ∈ Raft.failures k q n, x.Shaped P
  | 0, _, h => by cases h
  | n + 1, x, h => by
    rcases List.mem_append.1 h with h | h
    · exact failures_shaped P k q n x h
    · rcases List.mem_cons.1 h with rfl | h
      · trivial
      · rw [List.mem_singleton.1 h]; trivial

/-- The request with both commands. -/
def bigReq : Raft.Req :=
  { type := .appendReq, src := 1, dst := 2, term := 1, lastTerm := 1, lastIdx := 1, commitIdx := 1,
    entries := [⟨1, .app 1⟩, ⟨1, .app 2⟩] }

theorem bigReq_size (D : Dict) (r : Raft.Req) : (bigReq.entries.map fun e => 13 + valSize D r e.val).sum =
    13 + (D.command 1).data.length + (13 + (D.command 2).data.length) := rfl

/-- C88 fails: the leader accepts two commands of 9 MiB (each of which could be sent alone) and sends them in one request. Server 2
closes the connection on it, and on each of the requests with which the leader tries again, however often: the commands do not reach it
while the leader leads. -/
theorem batch_refused (n : Nat) : ∃ q fx fx' d L, Raft.Hist Raft.node1 (Raft.Node.fresh Raft.conf3)
      (twoBig.flatMap Raft.Move.input ++ Raft.failures 2 q n) (fx ++ .send q :: fx') ⟨d, some L⟩ ∧ fx'.length = n ∧
    q.entries = [⟨1, .app 1⟩, ⟨1, .app 2⟩] ∧ ∀ e ∈ .send q :: fx', ∃ r, e = .send r ∧ r.dst = 2 ∧ r.entries = q.entries ∧
      ∀ (junk junk' : Byte) (rest : List Byte), ∃ w b s, wire bigDict junk r = .ok w ∧ Rpc.encodeReq junk w = .ok b ∧
        Rpc.Session.new junk' = .ok s ∧ Rpc.receive junk' s (b.content ++ rest) = .closed := by
  obtain ⟨⟨d, up⟩, fx, h, hp⟩ := Raft.Node.witness (c := Raft.node1) (n := Raft.Node.fresh Raft.conf3) twoBig
    (fun n fx => fx.getLast? == some (.send bigReq) && (match n.up with
      | some s => decide (s.role = .leader ∧ s.log.start = 1 ∧ s.log.next = 4 ∧ (s.findPeer 2).map Raft.Peer.nextIdx = some 2 ∧
          s.behind 1 = bigReq.entries)
      | none => false)) (by decide +kernel)
  rw [Bool.and_eq_true] at hp
  obtain ⟨hp1, hp2⟩ := hp
  obtain ⟨fx0, rfl⟩ := List.getLast?_eq_some_iff.1 (beq_iff_eq.1 hp1)
  cases up with
  | none => cases hp2
  | some L =>
    obtain ⟨g1, g2, g3, g4, g5⟩ := of_decide_eq_true hp2
    obtain ⟨p, p1, p2⟩ := Option.map_eq_some_iff.1 g4
    obtain ⟨fx', d', L', a1, a2, a3, a4⟩ := Raft.sends_again h (k := 2) (m := 2) ⟨g1, rfl, rfl, p, p1, p2⟩ g2 (by omega) (by omega)
      (q := bigReq) rfl rfl n
    rw [List.append_assoc] at a1
    have hsh := (a1.shaped (P := SrvOk bigDict) (fresh_shaped fun _ => big_srv) (fun x hx => by
      rcases List.mem_append.1 hx with hx | hx
      · exact twoBig_shaped _ x hx
      · exact failures_shaped _ _ _ n x hx)).2
    refine ⟨bigReq, fx0, fx', d', L', a1, a3, rfl, fun e he => ?_⟩
    have hr : ∃ r, e = .send r ∧ r.dst = 2 ∧ r.type = .appendReq ∧ r.entries = bigReq.entries := by
      rcases List.mem_cons.1 he with rfl | he
      · exact ⟨bigReq, rfl, rfl, rfl, rfl⟩
      · obtain ⟨r, r1, r2, r3, r4⟩ := a4 e he
        exact ⟨r, r1, r2, r3, r4.trans g5⟩
    obtain ⟨r, rfl, r2, r3, r4⟩ := hr
    refine ⟨r, rfl, r2, r4, fun junk junk' rest => ?_⟩
    have hsz : reqSize bigDict r = 18874397 := by
      rw [reqSize, r4, bigReq_size, (big_ok (n := 1) (by decide)).2, (big_ok (n := 2) (by decide)).2]
    refine oversize_refused bigDict junk junk' r (hsh _ (List.mem_append_right _ he)) r3 ?_ (by omega) (by omega) rest
    intro e he d hd
    rw [r4] at he
    have : d < 2 ^ 30 := by
      rcases List.mem_cons.1 he with rfl | he
      · cases hd; decide
      · rw [List.mem_singleton.1 he] at hd; cases hd; decide
    exact (big_ok this).1

/-- Each of the two alone is received. -/
example : 13 + (bigDict.command 1).data.length ≤ 0x1000000 ∧ 13 + (bigDict.command 2).data.length ≤ 0x1000000 := by
  rw [(big_ok (n := 1) (by decide)).2, (big_ok (n := 2) (by decide)).2]
  exact ⟨by omega, by omega⟩

/-- The hypotheses of `batch_received_partial` with commands of five bytes and 100 entries. -/
example (rest : List Byte) : ∃ n fx, Raft.Hist Raft.node1 (Raft.Node.fresh Raft.conf3) (runScript.flatMap Raft.Move.input) fx n ∧
    .send runReq ∈ fx ∧ ∃ w b s w' s', wire (dict 0) 0 runReq = .ok w ∧ Rpc.encodeReq 0 w = .ok b ∧ Rpc.Session.new 9 = .ok s ∧
      Rpc.receive 9 s (b.content ++ rest) = .request w' s' rest ∧ unwire (dict 0) 9 w' = .ok runReq := by
  obtain ⟨n, fx, h, hp⟩ := Raft.Node.witness (c := Raft.node1) (n := Raft.Node.fresh Raft.conf3) runScript
    (fun _ fx => fx.contains (.send runReq)) (by decide +kernel)
  have hm : .send runReq ∈ fx := by simpa using hp
  refine ⟨n, fx, h, hm, batch_received_partial (dict 0) 0 9 h (fresh_shaped fun _ => dict_srv 0) (fun _ h => (by cases h)) runScript_shaped ?_ hm rfl runReq_fits
    (k := 1000) ?_ (by decide) rest⟩
  · intro r hr
    simp [runScript, Raft.electScript, Raft.Move.input, Raft.voteRespOf, Raft.appendRespOf] at hr
  · intro e he
    rw [List.mem_singleton.1 he]
    have := (bufAt_ok (bs := List.replicate 5 7) 1 (by decide)).2
    show (bufAt (List.replicate 5 7) 1).data.length ≤ _
    rw [this]; decide

end Cs.Link
