import Verif.Conc.Listener

/-!
# Requests of a connection, and connections of a listener (C93)

The requests of a connection are handled one at a time, in the order in which they were sent, and each is answered before the next
one is taken. While the listener is not stopped, every connection that arrives can be accepted, however many accepts failed. After
`stop` no connection is accepted. But the connections that exist are served on after `stop`.
-/

namespace Cs.Listener

/-! ## Specification -/

/-- The requests in what the other side of a connection sends. -/
def heads : List Part → List Nat
  | [] => []
  | .head n _ :: ps => n :: heads ps
  | .data _ :: ps => heads ps

/-- Requests handled one after the other, each answered before the next is taken; the last one may still be without answer. -/
def turns (done : List (Nat × Nat)) (last : List Nat) : List Ev :=
  (done.flatMap fun p => [.took p.1, .answered p.1 p.2]) ++ last.map .took

/-! ## Proofs -/

theorem heads_append : ∀ ps qs, heads (ps ++ qs) = heads ps ++ heads qs
  | [], _ => rfl
  | .head _ _ :: ps, qs => congrArg _ (heads_append ps qs)
  | .data _ :: ps, qs => heads_append ps qs

/-- The state of a session: requests sent are those answered, the one in work, and those not read. -/
def Good (c : Ses) (rs : List Nat) : Prop := ∃ done, match c.ph with
  | .header => c.evs = turns done [] ∧ done.map Prod.fst ++ heads c.inn = rs
  | .wrote => c.evs = turns done [] ∧ done.map Prod.fst ++ heads c.inn = rs
  | .data n => c.evs = turns done [] ∧ done.map Prod.fst ++ n :: heads c.inn = rs
  | .handling n => c.evs = turns done [n] ∧ done.map Prod.fst ++ n :: heads c.inn = rs
  | .writing n _ => c.evs = turns done [n] ∧ done.map Prod.fst ++ n :: heads c.inn = rs
  | .closed => ∃ last, c.evs = turns done last ∧ last.length ≤ 1 ∧ done.map Prod.fst ++ last <+: rs

theorem turns_took (done : List (Nat × Nat)) (n : Nat) : turns done [] ++ [.took n] = turns done [n] := by
  unfold turns
  rw [List.map_nil, List.append_nil]
  rfl

theorem turns_answered (done : List (Nat × Nat)) (n a : Nat) : turns done [n] ++ [.answered n a] = turns (done ++ [(n, a)]) [] := by
  unfold turns
  rw [List.flatMap_append, List.append_assoc, List.append_assoc]
  rfl

theorem Good.closed {c : Ses} {rs : List Nat} (h : Good c rs) (e : List Part) : Good { c with ph := .closed, inn := e } rs := by
  obtain ⟨done, h⟩ := h
  refine ⟨done, ?_⟩
  show ∃ last, c.evs = turns done last ∧ last.length ≤ 1 ∧ done.map Prod.fst ++ last <+: rs
  cases hp : c.ph with
  | header => rw [hp] at h; exact ⟨[], h.1, Nat.zero_le _, by rw [List.append_nil, ← h.2]; exact List.prefix_append _ _⟩
  | wrote => rw [hp] at h; exact ⟨[], h.1, Nat.zero_le _, by rw [List.append_nil, ← h.2]; exact List.prefix_append _ _⟩
  | data n => rw [hp] at h; exact ⟨[], h.1, Nat.zero_le _, by rw [List.append_nil, ← h.2]; exact List.prefix_append _ _⟩
  | handling n => rw [hp] at h; exact ⟨[n], h.1, Nat.le_refl _, ⟨heads c.inn, by rw [List.append_assoc]; exact h.2⟩⟩
  | writing n a => rw [hp] at h; exact ⟨[n], h.1, Nat.le_refl _, ⟨heads c.inn, by rw [List.append_assoc]; exact h.2⟩⟩
  | closed => rw [hp] at h; exact h

theorem Good.read {c : Ses} {rs : List Nat} (h : Good c rs) : Good c.read rs := by
  unfold Ses.read
  split
  · next n size rest hp hi =>
    unfold Ses.header
    split
    · exact h.closed rest
    · split
      · obtain ⟨done, h⟩ := h
        rw [hp, hi] at h
        exact ⟨done, by show c.evs ++ _ = _; rw [h.1]; exact turns_took done n, h.2⟩
      · obtain ⟨done, h⟩ := h
        rw [hp, hi] at h
        exact ⟨done, h.1, h.2⟩
  · exact h.closed _
  · split
    · exact h.closed _
    · exact h
  · next n rest hp hi =>
    obtain ⟨done, h⟩ := h
    rw [hp, hi] at h
    exact ⟨done, by show c.evs ++ _ = _; rw [h.1]; exact turns_took done n, h.2⟩
  · exact h.closed _
  · split
    · exact h.closed _
    · exact h
  · exact h

theorem Good.reply {c : Ses} {rs : List Nat} (h : Good c rs) (a : Option Nat) : Good (c.reply a) rs := by
  unfold Ses.reply
  split
  · next hp =>
    obtain ⟨done, h⟩ := h
    rw [hp] at h
    exact ⟨done, h.1, h.2⟩
  · exact h.closed _
  · exact h

theorem Good.write {c : Ses} {rs : List Nat} (h : Good c rs) (ok : Bool) : Good (c.write ok) rs := by
  unfold Ses.write
  split
  · next n a hp =>
    split
    · obtain ⟨done, h⟩ := h
      rw [hp] at h
      refine ⟨done ++ [(n, a)], ?_, ?_⟩
      · show c.evs ++ _ = _
        rw [h.1]
        exact turns_answered done n a
      · rw [List.map_append, List.append_assoc]
        exact h.2
    · exact h.closed _
  · exact h

theorem Good.written {c : Ses} {rs : List Nat} (h : Good c rs) : Good c.written rs := by
  unfold Ses.written
  split
  · next hp =>
    obtain ⟨done, h⟩ := h
    rw [hp] at h
    exact ⟨done, h⟩
  · exact h

/-- More is sent. -/
theorem Good.send {c : Ses} {rs : List Nat} (h : Good c rs) (p : Part) (q : List Part) :
    Good { c with sent := q, inn := c.inn ++ [p] } (rs ++ heads [p]) := by
  obtain ⟨done, h⟩ := h
  refine ⟨done, ?_⟩
  cases hp : c.ph with
  | header => rw [hp] at h; exact ⟨h.1, by rw [heads_append, ← h.2, List.append_assoc]⟩
  | wrote => rw [hp] at h; exact ⟨h.1, by rw [heads_append, ← h.2, List.append_assoc]⟩
  | data n => rw [hp] at h; exact ⟨h.1, by rw [heads_append, ← h.2, List.append_assoc]; rfl⟩
  | handling n => rw [hp] at h; exact ⟨h.1, by rw [heads_append, ← h.2, List.append_assoc]; rfl⟩
  | writing n a => rw [hp] at h; exact ⟨h.1, by rw [heads_append, ← h.2, List.append_assoc]; rfl⟩
  | closed =>
    rw [hp] at h
    obtain ⟨last, h1, h2, h3⟩ := h
    exact ⟨last, h1, h2, h3.trans (List.prefix_append _ _)⟩

/-- What is true of a session. -/
def Fit (c : Ses) : Prop := Good c (heads c.sent)

theorem read_sent (c : Ses) : c.read.sent = c.sent := by
  unfold Ses.read Ses.header
  split <;> (try split) <;> (try split) <;> rfl

theorem reply_sent (c : Ses) (a : Option Nat) : (c.reply a).sent = c.sent := by unfold Ses.reply; split <;> rfl
theorem write_sent (c : Ses) (ok : Bool) : (c.write ok).sent = c.sent := by unfold Ses.write; split <;> (try split) <;> rfl
theorem written_sent (c : Ses) : c.written.sent = c.sent := by unfold Ses.written; split <;> rfl

theorem start_ses (s : St) : s.start.ses = s.ses := by unfold St.start; split <;> rfl

theorem mem_modify {l : List Ses} {i : Nat} {f : Ses → Ses} {c : Ses} (h : c ∈ l.modify i f) : c ∈ l ∨ ∃ c' ∈ l, c = f c' := by
  obtain ⟨j, hj⟩ := List.getElem?_of_mem h
  rw [List.getElem?_modify] at hj
  split at hj
  · rcases hl : l[j]? with _ | d
    · rw [hl] at hj; cases hj
    · rw [hl] at hj
      injection hj with hj
      exact .inr ⟨d, List.mem_of_getElem? hl, hj.symm⟩
  · rcases hl : l[j]? with _ | d
    · rw [hl] at hj; cases hj
    · rw [hl] at hj
      injection hj with hj
      have hj : d = c := hj
      exact .inl (hj ▸ List.mem_of_getElem? hl)

theorem fit_step {s : St} (h : ∀ c ∈ s.ses, Fit c) (a : Act) : ∀ c ∈ (s.step a).ses, Fit c := by
  have on : ∀ {i} {f : Ses → Ses}, (∀ c, Fit c → Fit (f c)) → ∀ c ∈ (s.at i f).ses, Fit c := by
    intro i f hf c hc
    rcases mem_modify hc with hc | ⟨d, hd, rfl⟩
    · exact h c hc
    · exact hf d (h d hd)
  cases a with
  | connect => exact h
  | accept => show ∀ c ∈ (if s.acc = .pending ∧ 0 < s.backlog then _ else s : St).ses, Fit c; split <;> exact h
  | fail => show ∀ c ∈ (if s.acc = .pending then _ else s : St).ses, Fit c; split <;> exact h
  | accepted =>
    show ∀ c ∈ s.accepted.ses, Fit c
    unfold St.accepted
    split
    · rw [start_ses]
      intro c hc
      rcases List.mem_append.1 hc with hc | hc
      · exact h c hc
      · rw [List.mem_singleton.1 hc]
        exact ⟨[], rfl, rfl⟩
    · rw [start_ses]; exact h
    · exact h
    · exact h
  | stop => exact h
  | send i p =>
    refine on fun c hc => ?_
    show Fit (if c.fin then c else _)
    split
    · exact hc
    · unfold Fit
      show Good _ (heads (c.sent ++ [p]))
      rw [heads_append]
      exact Good.send hc p _
  | close i => exact on fun c hc => hc
  | read i => exact on fun c hc => by unfold Fit; rw [read_sent]; exact Good.read hc
  | reply i a => exact on fun c hc => by unfold Fit; rw [reply_sent]; exact Good.reply hc a
  | write i ok => exact on fun c hc => by unfold Fit; rw [write_sent]; exact Good.write hc ok
  | written i => exact on fun c hc => by unfold Fit; rw [written_sent]; exact Good.written hc

theorem fit_run : ∀ (as : List Act) {s : St}, (∀ c ∈ s.ses, Fit c) → ∀ c ∈ (s.run as).ses, Fit c
  | [], _, h => h
  | a :: as, _, h => fit_run as (fit_step h a)

/-! ## C93 -/

/-- C93, order: in every execution, and for every connection that was accepted: the requests given to the message handler are the first of
those sent, in this order; each was answered before the next one was taken, and only the last may be without answer. -/
theorem requests_in_turn (as : List Act) {c : Ses} (hc : c ∈ (St.init.run as).ses) : ∃ done last, c.evs = turns done last ∧
    last.length ≤ 1 ∧ done.map Prod.fst ++ last <+: heads c.sent := by
  have h := fit_run as (s := St.init) (fun _ h => (by cases h)) c hc
  obtain ⟨done, _, h⟩ := Good.closed h []
  exact ⟨done, _, h⟩

/-- Two requests are sent at once. -/
example : ∃ as c, c ∈ (St.init.run as).ses ∧ heads c.sent = [4, 5, 6] ∧ c.evs = turns [(4, 40)] [5] :=
  ⟨[.connect, .accept, .accepted, .send 0 (.head 4 0), .send 0 (.head 5 20), .send 0 (.data true), .send 0 (.head 6 0), .read 0,
    .reply 0 (some 40), .write 0 true, .read 0, .written 0, .read 0, .read 0, .read 0], _, List.mem_singleton.2 rfl, rfl, rfl⟩

theorem at_get {s : St} {i : Nat} {f : Ses → Ses} {c : Ses} (h : s.ses[i]? = some c) : (s.at i f).ses[i]? = some (f c) := by
  show (s.ses.modify i f)[i]? = _
  rw [List.getElem?_modify, h]
  show some (if i = i then f c else c) = _
  rw [if_pos rfl]

/-- C93, answers: a connection on which requests with sizes within the limit arrive, and whose requests the message handler answers,
gets an answer for each: for every session that waits for a request with nothing to read, every request with good data or none, and
every answer, the session gives the answer and waits again. -/
theorem request_answered (s : St) (i : Nat) {c : Ses} (hc : s.ses[i]? = some c) (hp : c.ph = .header) (hi : c.inn = []) (hf : c.fin = false)
    (n a : Nat) (size : Int) (h0 : 0 ≤ size) (h1 : size ≤ 0x1000000) : ∃ d,
    (s.run (.send i (.head n size) :: (if size = 0 then [.read i] else [.send i (.data true), .read i, .read i]) ++
      [.reply i (some a), .write i true, .written i])).ses[i]? = some d ∧ d.ph = .header ∧ d.inn = [] ∧ d.fin = false ∧
      d.evs = c.evs ++ [.took n, .answered n a] := by
  obtain ⟨ph, sent, inn, fin, evs⟩ := c
  have hp : ph = .header := hp
  have hi : inn = [] := hi
  have hf : fin = false := hf
  subst hp hi hf
  have g1 := at_get (f := fun c => if c.fin then c else { c with sent := c.sent ++ [.head n size], inn := c.inn ++ [.head n size] }) hc
  have hbad : ¬ (size < 0 ∨ size > 0x1000000) := by omega
  by_cases hz : size = 0
  · rw [if_pos hz]
    have e2 : Ses.read ⟨.header, sent ++ [.head n size], [.head n size], false, evs⟩ =
        ⟨.handling n, sent ++ [.head n size], [], false, evs ++ [.took n]⟩ := by
      show Ses.header _ n size [] = _
      unfold Ses.header
      rw [if_neg hbad, if_pos hz]
    have g2 := at_get (f := Ses.read) g1
    have g2 := g2.trans (congrArg some e2)
    have g3 := at_get (f := fun c => c.reply (some a)) g2
    have g4 := at_get (f := fun c => c.write true) g3
    have g5 := at_get (f := Ses.written) g4
    exact ⟨_, g5, rfl, rfl, rfl, by show evs ++ [.took n] ++ [.answered n a] = _; rw [List.append_assoc]; rfl⟩
  · rw [if_neg hz]
    have g2 := at_get (f := fun c => if c.fin then c else { c with sent := c.sent ++ [.data true], inn := c.inn ++ [.data true] }) g1
    have e3 : Ses.read ⟨.header, sent ++ [.head n size] ++ [.data true], [.head n size, .data true], false, evs⟩ =
        ⟨.data n, sent ++ [.head n size] ++ [.data true], [.data true], false, evs⟩ := by
      show Ses.header _ n size [.data true] = _
      unfold Ses.header
      rw [if_neg hbad, if_neg hz]
    have g3 := at_get (f := Ses.read) g2
    have g3 := g3.trans (congrArg some e3)
    have g4 := at_get (f := Ses.read) g3
    have g5 := at_get (f := fun c => c.reply (some a)) g4
    have g6 := at_get (f := fun c => c.write true) g5
    have g7 := at_get (f := Ses.written) g6
    exact ⟨_, g7, rfl, rfl, rfl, by show evs ++ [.took n] ++ [.answered n a] = _; rw [List.append_assoc]; rfl⟩

/-- The accept of a listener that is not stopped. -/
def Ready (s : St) : Prop := s.isOpen = true ∧ s.acc ≠ .none

theorem Ready.start {s : St} (h : s.isOpen = true) : Ready s.start := by
  unfold St.start
  rw [if_pos h]
  exact ⟨h, (fun e => nomatch e)⟩

theorem Ready.step {s : St} (h : Ready s) {a : Act} (ha : a ≠ .stop) : Ready (s.step a) := by
  cases a with
  | accept =>
    show Ready (if s.acc = .pending ∧ 0 < s.backlog then _ else s)
    split
    · exact ⟨h.1, (fun e => nomatch e)⟩
    · exact h
  | fail =>
    show Ready (if s.acc = .pending then _ else s)
    split
    · exact ⟨h.1, (fun e => nomatch e)⟩
    · exact h
  | accepted =>
    show Ready s.accepted
    unfold St.accepted
    split
    · exact Ready.start h.1
    · exact Ready.start h.1
    · exact h
    · exact h
  | stop => exact absurd rfl ha
  | _ => exact h

theorem Ready.run : ∀ {as : List Act} {s : St}, Ready s → .stop ∉ as → Ready (s.run as)
  | [], _, h, _ => h
  | a :: as, _, h, hn => Ready.run (as := as) (h.step fun e => hn (e ▸ List.mem_cons_self ..)) fun e => hn (List.mem_cons_of_mem _ e)

/-- C93, accepting: in every execution without `stop`, whatever accepts have failed: if a connection has arrived that is not accepted, it
is accepted and its session waits for a request when the pending accept and the handlers have run. -/
theorem connection_accepted (as : List Act) (hn : .stop ∉ as) {s : St} (hs : s = St.init.run as) (hb : 0 < s.backlog) :
    ∃ bs, (∀ b ∈ bs, b = .accept ∨ b = .accepted) ∧ (s.run bs).ses = s.ses ++ [Ses.new] := by
  have h := Ready.run (as := as) (s := St.init) ⟨rfl, (fun e => nomatch e)⟩ hn
  rw [← hs] at h
  have pend : ∀ {s : St}, s.isOpen = true → s.acc = .pending → 0 < s.backlog → (s.run [.accept, .accepted]).ses = s.ses ++ [Ses.new] := by
    intro s ho hp hb
    show St.ses (St.accepted (if s.acc = .pending ∧ 0 < s.backlog then _ else s)) = _
    rw [if_pos ⟨hp, hb⟩]
    show (St.start _).ses = _
    rw [start_ses]
  rcases ha : s.acc with _ | _ | _ | _
  · exact absurd ha h.2
  · refine ⟨[.accept, .accepted], ?_, pend h.1 ha hb⟩
    intro b hb
    rcases List.mem_cons.1 hb with rfl | hb
    · exact .inl rfl
    · exact .inr (List.mem_singleton.1 hb)
  · refine ⟨[.accepted], fun b hb => .inr (List.mem_singleton.1 hb), ?_⟩
    show s.accepted.ses = _
    unfold St.accepted
    rw [ha]
    exact start_ses _
  · refine ⟨[.accepted, .accept, .accepted], ?_, ?_⟩
    · intro b hb
      rcases List.mem_cons.1 hb with rfl | hb
      · exact .inr rfl
      rcases List.mem_cons.1 hb with rfl | hb
      · exact .inl rfl
      · exact .inr (List.mem_singleton.1 hb)
    · have e : s.accepted = { s with acc := .pending } := by
        unfold St.accepted
        rw [ha]
        show s.start = _
        unfold St.start
        rw [if_pos h.1]
      show (s.accepted.run [.accept, .accepted]).ses = _
      rw [e]
      exact pend (s := { s with acc := .pending }) h.1 rfl hb

example : ∃ as s, .stop ∉ as ∧ s = St.init.run as ∧ 0 < s.backlog ∧ s.acc = .failed ∧ s.ses.length = 1 :=
  ⟨[.connect, .accept, .connect, .accepted, .fail], _, by decide, rfl, by decide, rfl, rfl⟩

/-- A listener that was stopped: how many connections can still become sessions. -/
def Acc.left : Acc → Nat
  | .got => 1
  | _ => 0

/-- After `stop`. -/
def Over (s : St) : Prop := s.isOpen = false ∧ s.acc ≠ .pending

theorem Over.start {s : St} (h : s.isOpen = false) : Over s.start ∧ s.start.acc = .none := by
  unfold St.start
  rw [if_neg (by rw [h]; decide)]
  exact ⟨⟨h, (fun e => nomatch e)⟩, rfl⟩

theorem at_length (s : St) (i : Nat) (f : Ses → Ses) : (s.at i f).ses.length = s.ses.length := List.length_modify _ _ _

theorem Over.step {s : St} (h : Over s) (a : Act) : Over (s.step a) ∧
    (s.step a).ses.length + (s.step a).acc.left ≤ s.ses.length + s.acc.left := by
  cases a with
  | connect => exact ⟨h, Nat.le_refl _⟩
  | accept =>
    have e : s.step .accept = s := if_neg fun hc => h.2 hc.1
    rw [e]; exact ⟨h, Nat.le_refl _⟩
  | fail =>
    have e : s.step .fail = s := if_neg h.2
    rw [e]; exact ⟨h, Nat.le_refl _⟩
  | accepted =>
    show Over s.accepted ∧ s.accepted.ses.length + s.accepted.acc.left ≤ _
    unfold St.accepted
    split
    · next ha =>
      obtain ⟨h1, h2⟩ := Over.start (s := { s with ses := s.ses ++ [Ses.new] }) h.1
      refine ⟨h1, ?_⟩
      rw [h2, start_ses, ha]
      show (s.ses ++ [Ses.new]).length + 0 ≤ s.ses.length + 1
      rw [List.length_append]
      exact Nat.le_refl _
    · next ha =>
      obtain ⟨h1, h2⟩ := Over.start (s := s) h.1
      refine ⟨h1, ?_⟩
      rw [h2, start_ses, ha]
      exact Nat.le_refl _
    · exact ⟨h, Nat.le_refl _⟩
    · exact ⟨h, Nat.le_refl _⟩
  | stop =>
    have e : s.step .stop = s := by
      show s.stop = s
      unfold St.stop
      rw [if_neg h.2, ← h.1]
    rw [e]; exact ⟨h, Nat.le_refl _⟩
  | send i p => exact ⟨h, Nat.le_of_eq (congrArg (· + _) (at_length s i _))⟩
  | close i => exact ⟨h, Nat.le_of_eq (congrArg (· + _) (at_length s i _))⟩
  | read i => exact ⟨h, Nat.le_of_eq (congrArg (· + _) (at_length s i _))⟩
  | reply i a => exact ⟨h, Nat.le_of_eq (congrArg (· + _) (at_length s i _))⟩
  | write i ok => exact ⟨h, Nat.le_of_eq (congrArg (· + _) (at_length s i _))⟩
  | written i => exact ⟨h, Nat.le_of_eq (congrArg (· + _) (at_length s i _))⟩

theorem Over.run : ∀ (as : List Act) {s : St}, Over s → (s.run as).ses.length + (s.run as).acc.left ≤ s.ses.length + s.acc.left
  | [], _, _ => Nat.le_refl _
  | a :: as, _, h => Nat.le_trans (Over.run as (h.step a).1) (h.step a).2

/-- C93, `stop`: whatever happens after `stop`, no connection becomes a session, except one that was accepted before `stop` and whose
handler has not run. -/
theorem no_sessions_after_stop (s : St) (as : List Act) : ((s.step .stop).run as).ses.length ≤ s.ses.length + (if s.acc = .got then 1 else 0) := by
  have h := Over.run as (s := s.step .stop) (by
    refine ⟨rfl, ?_⟩
    show (if s.acc = .pending then Acc.failed else s.acc) ≠ .pending
    split
    · exact fun e => nomatch e
    · next hn => exact hn)
  have e : (s.step .stop).acc.left = if s.acc = .got then 1 else 0 := by
    show (if s.acc = .pending then Acc.failed else s.acc).left = _
    rcases s.acc with _ | _ | _ | _ <;> rfl
  rw [e] at h
  exact Nat.le_trans (Nat.le_add_right _ _) h

example : ((St.init.run [.connect, .accept, .stop, .connect, .accepted, .accept, .accepted]).ses.length = 1) := rfl

/-- C93, negative: `stop` changes no session. Every connection that waits for a request when `stop` is called is served on: its next
request goes to the message handler and is answered, whatever it is, and so is every one after it. -/
theorem served_after_stop (s : St) (i : Nat) {c : Ses} (hc : s.ses[i]? = some c) (hp : c.ph = .header) (hi : c.inn = []) (hf : c.fin = false)
    (n a : Nat) : ∃ bs d, ((s.step .stop).run bs).ses[i]? = some d ∧ d.ph = .header ∧ d.inn = [] ∧ d.fin = false ∧
      d.evs = c.evs ++ [.took n, .answered n a] := by
  obtain ⟨d, h⟩ := request_answered (s.step .stop) i hc hp hi hf n a 0 (by decide) (by decide)
  exact ⟨_, d, h⟩

example : ∃ as s c, s = St.init.run as ∧ s.ses[0]? = some c ∧ c.ph = .header ∧ c.inn = [] ∧ c.fin = false ∧ c.evs = turns [(1, 1)] [] :=
  ⟨[.connect, .accept, .accepted, .send 0 (.head 1 0), .read 0, .reply 0 (some 1), .write 0 true, .written 0], _, _, rfl, rfl, rfl, rfl, rfl, rfl⟩

end Cs.Listener
