import Verif.Conc.LocksInv

/-!
# The mutexes of a server (C95, C96, C97)

Threads that use a server never wait for each other in a circle: whatever they run, someone can always go on, and if nothing new is
begun everything is finished. But a server that wins an election shares `peers_lock_` a second time, which the standard does not
allow; and several members are read without the mutex under which they are written.
-/

namespace Cs.Locks

/-! ## Runs to be shown as cases -/

/-- A run of a program that takes its decisions from a list: for an alternative 0 is the first one; for a loop the number of rounds. -/
def play : Prog → List Nat → List Act × List Nat
  | .skip, cs => ([], cs)
  | .rd v, cs => ([.rd v], cs)
  | .wr v, cs => ([.wr v], cs)
  | .seq p q, cs => ((play p cs).1 ++ (play q (play p cs).2).1, (play q (play p cs).2).2)
  | .alt p q, cs => if cs.headD 0 = 0 then play p cs.tail else play q cs.tail
  | .star p, cs => Nat.rec (motive := fun _ => List Nat → List Act × List Nat) (fun cs => ([], cs))
      (fun _ f cs => ((play p cs).1 ++ (f (play p cs).2).1, (f (play p cs).2).2)) (cs.headD 0) cs.tail
  | .guard k p, cs => (.lock ⟨k, 0⟩ :: (play p cs).1 ++ [.unlock], (play p cs).2)
  | .shared k p, cs => (.rlock ⟨k, 0⟩ :: (play p cs).1 ++ [.unlock], (play p cs).2)
  | .call p, cs => play p cs

theorem play_trace (p : Prog) : ∀ cs, Trace p true (play p cs).1 := by
  induction p with
  | skip => intro cs; exact .skip
  | rd v => intro cs; exact .rd v
  | wr v => intro cs; exact .wr v
  | seq p q ihp ihq => intro cs; exact .seq (ihp cs) (ihq _)
  | alt p q ihp ihq =>
    intro cs
    unfold play
    split
    · exact .altL (ihp _)
    · exact .altR (ihq _)
  | star p ih =>
    intro cs
    unfold play
    generalize cs.tail = ds
    generalize cs.headD 0 = n
    induction n generalizing ds with
    | zero => exact .starEnd
    | succ n ihn => exact .starStep (ih ds) (ihn _)
  | guard k p ih => intro cs; exact .guard ⟨rfl, fun _ => rfl⟩ (ih cs)
  | shared k p ih => intro cs; exact .shared ⟨rfl, fun _ => rfl⟩ (ih cs)
  | call p ih => intro cs; exact .callEnd (ih cs)

/-- Thread `i` does its next action, if it can. -/
def go (ts : List Thread) (i : Nat) : Option (List Thread) :=
  match ts[i]? with
  | some ⟨h, .lock l :: r⟩ =>
    if (List.range ts.length).all (fun j => (ts.getD j .idle).held.all fun g =>
        !decide (g.lk = l) || (decide (j = i) && l.kind.recursive)) then some (ts.set i ⟨⟨l, false⟩ :: h, r⟩) else none
  | some ⟨h, .rlock l :: r⟩ =>
    if ts.all (fun t => t.held.all fun g => !decide (g.lk = l) || g.shared) then some (ts.set i ⟨⟨l, true⟩ :: h, r⟩) else none
  | some ⟨_ :: h, .unlock :: r⟩ => some (ts.set i ⟨h, r⟩)
  | some ⟨h, .rd _ :: r⟩ => some (ts.set i ⟨h, r⟩)
  | some ⟨h, .wr _ :: r⟩ => some (ts.set i ⟨h, r⟩)
  | _ => none

theorem go_move {ts us : List Thread} {i : Nat} (h : go ts i = some us) : Move false ts i us := by
  unfold go at h
  split at h
  · rename_i H l r ht
    split at h
    · rename_i hc
      cases h
      refine .lock ht ?_
      intro j t g hj hg he
      have hlt : j < ts.length := (List.getElem?_eq_some_iff.mp hj).1
      have h1 := List.all_eq_true.mp hc j (List.mem_range.mpr hlt)
      rw [List.getD_eq_getElem?_getD, hj] at h1
      have h2 := List.all_eq_true.mp h1 g hg
      simpa [he] using h2
    · cases h
  · rename_i H l r ht
    split at h
    · rename_i hc
      cases h
      refine .rlock ht ?_ fun h => by cases h
      intro j t g hj hg he
      have h1 := List.all_eq_true.mp hc t (List.mem_of_getElem? hj)
      have h2 := List.all_eq_true.mp h1 g hg
      simpa [he] using h2
    · cases h
  · rename_i ht; cases h; exact .unlock ht
  · rename_i ht; cases h; exact .rd ht
  · rename_i ht; cases h; exact .wr ht
  · cases h

/-- Threads act in turn, as often as listed. -/
def goes : List Thread → List (Nat × Nat) → Option (List Thread)
  | ts, [] => some ts
  | ts, (i, n) :: as =>
    match Nat.rec (motive := fun _ => Option (List Thread)) (some ts) (fun _ o => o.bind fun us => go us i) n with
    | none => none
    | some us => goes us as

theorem goes_reach {ps : List Prog} : ∀ (as : List (Nat × Nat)) {ts us : List Thread}, Reach ps ts → goes ts as = some us → Reach ps us := by
  intro as
  induction as with
  | nil => intro ts us hr h; cases h; exact hr
  | cons a as ih =>
    obtain ⟨i, n⟩ := a
    intro ts us hr h
    unfold goes at h
    split at h
    · cases h
    · rename_i vs hv
      refine ih ?_ h
      clear h
      induction n generalizing vs with
      | zero => cases hv; exact hr
      | succ n ihn =>
        have hv : (Nat.rec (motive := fun _ => Option (List Thread)) (some ts) (fun _ o => o.bind fun us => go us i) n).bind
          (fun us => go us i) = some vs := hv
        obtain ⟨ws, hw, hgo⟩ := Option.bind_eq_some_iff.mp hv
        exact .move (ihn ws hw) (go_move hgo)

theorem goes_any {ps : List Prog} {ts : List Thread} {f : List Thread → Bool} (hr : Reach ps ts) (as : List (Nat × Nat))
    (h : (goes ts as).any f = true) : ∃ us, Reach ps us ∧ f us = true := by
  cases hg : goes ts as with
  | none => rw [hg] at h; cases h
  | some us => rw [hg] at h; exact ⟨us, goes_reach as hr hg, h⟩

/-- Two threads that have begun to run two entry points. -/
theorem two_begin {p q : Prog} (hp : p ∈ entryPoints) (hq : q ∈ entryPoints) (cs ds : List Nat) :
    Reach entryPoints [⟨[], (play p cs).1⟩, ⟨[], (play q ds).1⟩] :=
  .begin (.begin (.init 2) (.mk (i := 0) rfl hp (play_trace p cs))) (.mk (i := 1) rfl hq (play_trace q ds))

/-- One thread that has begun to run an entry point. -/
theorem one_begins {p : Prog} (hp : p ∈ entryPoints) (cs : List Nat) : Reach entryPoints [⟨[], (play p cs).1⟩] :=
  .begin (.init 1) (.mk (i := 0) rfl hp (play_trace p cs))

/-! ## C95 -/

/-- Threads make moves, nothing new is begun. -/
inductive Moves (strict : Bool) : List Thread → Nat → List Thread → Prop
  | refl (ts) : Moves strict ts 0 ts
  | step {ts us vs i n} : Move strict ts i us → Moves strict us n vs → Moves strict ts (n + 1) vs

/-- **C95.** While a thread has not finished what it runs, some thread can do its next action: threads never wait for each other in a
circle, nor for a mutex that they have themselves. This holds even if readers of a shared mutex never overtake waiting writers. -/
theorem no_deadlock {ts : List Thread} (h : Reach entryPoints ts) {i : Nat} {t : Thread} (ht : ts[i]? = some t) (hb : t.rest ≠ []) :
    ∃ j us, Move true ts j us :=
  alive_of_busy (h.inv entryPoints_check) ht hb

/-- The threads that have not finished do so: whenever nothing new is begun, the threads make no more moves than they have actions
left, and as long as some are left some thread can move. -/
theorem all_finish {ts : List Thread} (h : Reach entryPoints ts) :
    (∀ {b n us}, Moves b ts n us → n ≤ left ts) ∧
      ∀ {b n us}, Moves b ts n us → (∀ j vs, ¬ Move true us j vs) → ∀ t ∈ us, t = .idle := by
  have hbound : ∀ {b n} {ts us : List Thread}, Moves b ts n us → left us + n = left ts := by
    intro b n ts us hm
    induction hm with
    | refl => rfl
    | step hm _ ih => have := hm.left; omega
  have hreach : ∀ {b n} {ts us : List Thread}, Reach entryPoints ts → Moves b ts n us → Reach entryPoints us := by
    intro b n ts us hr hm
    induction hm with
    | refl => exact hr
    | step hm _ ih => exact ih (.move hr hm.lax)
  refine ⟨fun hm => by have := hbound hm; omega, ?_⟩
  intro b n us hm hend t ht
  have hr := hreach h hm
  obtain ⟨i, hi⟩ := List.mem_iff_getElem?.mp ht
  have hok := (hr.inv entryPoints_check).ok i t hi
  cases hrest : t.rest with
  | cons a r =>
    obtain ⟨j, vs, hv⟩ := no_deadlock hr hi (by rw [hrest]; exact fun h => by cases h)
    exact absurd hv (hend j vs)
  | nil =>
    have hg := hok.2
    rw [hrest] at hg
    obtain ⟨H, r⟩ := t
    cases hrest
    cases (show H = [] from hg)
    rfl

/-- A case: a thread that answers a request of a user waits for `lock_`, which the commit thread has, and this one can go on. -/
example : ∃ ts, Reach entryPoints ts ∧ (ts.map fun t => t.rest.head?) = [some (.lock ⟨.main, 0⟩), some (.lock ⟨.logger, 0⟩)] ∧
    go ts 0 = none ∧ (go ts 1).isSome = true := by
  obtain ⟨ts, hr, h⟩ := goes_any (f := fun ts => decide ((ts.map fun t => t.rest.head?) =
      [some (.lock ⟨.main, 0⟩), some (.lock ⟨.logger, 0⟩)]) && (go ts 0).isNone && (go ts 1).isSome)
    (two_begin (p := userCall) (q := commitRound) (by simp [entryPoints]) (by simp [entryPoints]) [1, 0, 1, 0]
      [1, 1, 1, 1, 0, 0, 0, 0, 0, 1]) [(0, 4), (1, 11)] (by decide +kernel)
  have h := Bool.and_eq_true_iff.mp h
  have h1 := Bool.and_eq_true_iff.mp h.1
  exact ⟨ts, hr, of_decide_eq_true h1.1, Option.isNone_iff_eq_none.mp h1.2, h.2⟩

/-! ## C96 -/

/-- **C96, violated.** A thread whose server wins an election shares `peers_lock_` while it already shares it:
`handle_voting_resp` calls `become_leader` within the scope of its guard. For `std::shared_timed_mutex` this is undefined. -/
theorem shares_twice : ∃ ts, Reach entryPoints ts ∧ ∃ t r, ts[0]? = some t ∧ t.rest = .rlock ⟨.peers, 0⟩ :: r ∧
    ⟨⟨.peers, 0⟩, true⟩ ∈ t.held := by
  obtain ⟨ts, hr, h⟩ := goes_any (f := fun ts => decide ((ts.getD 0 .idle).rest.head? = some (.rlock ⟨.peers, 0⟩)) &&
      decide ((⟨⟨.peers, 0⟩, true⟩ : Hold) ∈ (ts.getD 0 .idle).held))
    (one_begins (p := handlePeerResp) (by simp [entryPoints])
      [1, 0, 1, 0, 1, 1, 0, 1, 2, 1, 1, 1, 2, 0, 1, 1, 1, 0, 0, 0, 1, 0, 1, 1, 1, 0, 0, 0, 1]) [(0, 21)] (by decide +kernel)
  have h := Bool.and_eq_true_iff.mp h
  have h1 := of_decide_eq_true h.1
  have h2 := of_decide_eq_true h.2
  cases ts with
  | nil => cases h1
  | cons t ts =>
    obtain ⟨H, r⟩ := t
    cases r with
    | nil => cases h1
    | cons a r => cases h1; exact ⟨_, hr, _, r, rfl, rfl, h2⟩

/-- **C96, in part.** This is the only case: a mutex that a thread takes again while it has it is recursive and taken again for
itself, or it is `peers_lock_`, shared both times, by a thread that has `lock_`. Missing: that it does not happen. -/
theorem taken_again_partial {ts : List Thread} (h : Reach entryPoints ts) {i : Nat} {t : Thread} (ht : ts[i]? = some t) {l : Lk}
    {r : List Act} {g : Hold} (hg : g ∈ t.held) (hl : g.lk = l) :
    (t.rest = .lock l :: r → l.kind = .main ∨ l.kind = .store) ∧
      (t.rest = .rlock l :: r → l.kind = .peers ∧ g.shared = true ∧ ⟨⟨.main, 0⟩, false⟩ ∈ t.held) := by
  have hok := (h.inv entryPoints_check).ok i t ht
  subst hl
  constructor
  · intro hr
    have hgood := hok.2
    rw [hr] at hgood
    rcases okEx_cases hgood.1 with ⟨h1, _⟩ | ⟨h1, _⟩
    · revert h1; cases g.lk.kind <;> decide
    · exact absurd (h1 g hg) (Nat.lt_irrefl _)
  · intro hr
    have hgood := hok.2
    rw [hr] at hgood
    rcases okSh_cases hgood.1 with ⟨h1, ⟨a, ha1, ha2, ha3⟩, b, hb1, hb2, hb3⟩ | h1
    · refine ⟨h1, ?_, ?_⟩
      · rw [← ha3]; exact hok.1.both hg ha1 h1 ha2
      · obtain ⟨⟨k, n⟩, s⟩ := b
        cases hb2
        cases hb3
        have hn : n = 0 := (hok.1.is _ hb1).2 rfl
        subst hn
        exact hb1
    · exact absurd (h1 g hg) (Nat.lt_irrefl _)

/-- A case: a thread that has `lock_` takes it again, in `create_append_entries_req`. -/
example : ∃ ts, Reach entryPoints ts ∧ ∃ t r, ts[0]? = some t ∧ t.rest = .lock ⟨.main, 0⟩ :: r ∧ ⟨⟨.main, 0⟩, false⟩ ∈ t.held := by
  obtain ⟨ts, hr, h⟩ := goes_any (f := fun ts => decide ((ts.getD 0 .idle).rest.head? = some (.lock ⟨.main, 0⟩)) &&
      decide ((⟨⟨.main, 0⟩, false⟩ : Hold) ∈ (ts.getD 0 .idle).held))
    (one_begins (p := handleHbTimeout) (by simp [entryPoints]) [0, 0, 1, 1, 1, 0, 0, 0, 1]) [(0, 4)] (by decide +kernel)
  have h := Bool.and_eq_true_iff.mp h
  have h1 := of_decide_eq_true h.1
  have h2 := of_decide_eq_true h.2
  cases ts with
  | nil => cases h1
  | cons t ts =>
    obtain ⟨H, r⟩ := t
    cases r with
    | nil => cases h1
    | cons a r => cases h1; exact ⟨_, hr, _, r, rfl, rfl, h2⟩

/-! ## C97 -/

/-- One thread is about to write a member while another one is about to read or to write it. -/
def Race (ts : List Thread) (v : Var) : Prop :=
  ∃ (i j : Nat) (t u : Thread) (r s : List Act), i ≠ j ∧ ts[i]? = some t ∧ ts[j]? = some u ∧ t.rest = .wr v :: r ∧
    (u.rest = .rd v :: s ∨ u.rest = .wr v :: s)

theorem guard_race {ts : List Thread} (hi : Inv ts) {v : Var} {k : Kind} {b : Bool} (hv : v.guard = some (k, b)) (hk : k.many = false) :
    ¬ Race ts v := by
  rintro ⟨i, j, t, u, r, s, hij, ht, hu, hr, hs⟩
  have hot := hi.ok i t ht
  have hou := hi.ok j u hu
  have hw : ∃ h ∈ t.held, h.lk.kind = k ∧ h.shared = false := by
    have hg := hot.2
    rw [hr] at hg
    have h1 : mayWrite (ctx t.held) v = true := hg.1
    unfold mayWrite at h1
    rw [hv] at h1
    exact of_contains h1
  have hx : ∃ h ∈ u.held, h.lk.kind = k := by
    have hg := hou.2
    rcases hs with hs | hs
    · rw [hs] at hg
      have h1 : mayRead (ctx u.held) v = true := hg.1
      unfold mayRead at h1
      rw [hv] at h1
      rcases Bool.or_eq_true_iff.mp h1 with h1 | h1
      · obtain ⟨h, a, b, _⟩ := of_contains h1; exact ⟨h, a, b⟩
      · obtain ⟨h, a, b, _⟩ := of_contains (Bool.and_eq_true_iff.mp h1).2; exact ⟨h, a, b⟩
    · rw [hs] at hg
      have h1 : mayWrite (ctx u.held) v = true := hg.1
      unfold mayWrite at h1
      rw [hv] at h1
      obtain ⟨h, a, b, _⟩ := of_contains h1; exact ⟨h, a, b⟩
  obtain ⟨h, h1, h2, h3⟩ := hw
  obtain ⟨g, g1, g2⟩ := hx
  have he : h.lk = g.lk := one_of (hot.1.is h h1) (hou.1.is g g1) (h2.trans g2.symm) (by rw [h2]; exact hk)
  have := (hi.excl i j t u h g ht hu hij h1 g1 he).1
  rw [h3] at this
  cases this

/-- **C97, in part.** The set of members, what is known of the server that joins, the votes, the state of prevoting, the counter for
stepping down, the flags of configuration changes and of joining, the election timer, the progress of members, the table of clients
and the log store are never written by a thread while another one uses them. Missing: the members of the server in
`raced_members`. -/
theorem not_raced_partial {ts : List Thread} (h : Reach entryPoints ts) :
    ∀ v ∈ [Var.members, .joining, .votes, .prevote, .steps, .changing, .catching, .timer, .sync, .clients, .files, .cached],
      ¬ Race ts v := by
  have hi := h.inv entryPoints_check
  intro v hv
  have key : ∃ k b, v.guard = some (k, b) ∧ k.many = false := by
    have : ∀ v ∈ [Var.members, .joining, .votes, .prevote, .steps, .changing, .catching, .timer, .sync, .clients, .files, .cached],
        (v.guard.any fun x => !x.1.many) = true := by decide
    have h1 := this v hv
    cases hg : v.guard with
    | none => rw [hg] at h1; cases h1
    | some x => rw [hg] at h1; exact ⟨x.1, x.2, rfl, by simpa using h1⟩
  obtain ⟨k, b, h1, h2⟩ := key
  exact guard_race hi h1 h2

/-- A case: a thread is about to read the set of members while the commit thread, which applies a configuration, waits for
`peers_lock_` to change it. -/
example : ∃ ts, Reach entryPoints ts ∧ (ts.map fun t => t.rest.head?) = [some (.rd .members), some (.lock ⟨.peers, 0⟩)] ∧
    go ts 1 = none := by
  obtain ⟨ts, hr, h⟩ := goes_any (f := fun ts => decide ((ts.map fun t => t.rest.head?) =
      [some (.rd .members), some (.lock ⟨.peers, 0⟩)]) && (go ts 1).isNone)
    (two_begin (p := userCall) (q := commitRound) (by simp [entryPoints]) (by simp [entryPoints]) [0, 1]
      [1, 1, 1, 1, 0, 0, 0, 1, 1, 0, 1, 0, 1]) [(0, 2), (1, 22)] (by decide +kernel)
  have h := Bool.and_eq_true_iff.mp h
  exact ⟨ts, hr, of_decide_eq_true h.1, Option.isNone_iff_eq_none.mp h.2⟩

/-- Two entry points that come to race. -/
theorem race_of {p q : Prog} (hp : p ∈ entryPoints) (hq : q ∈ entryPoints) (cs ds : List Nat) (as : List (Nat × Nat)) {v : Var}
    (h : ((goes [⟨[], (play p cs).1⟩, ⟨[], (play q ds).1⟩] as).any fun ts =>
      decide ((ts.getD 0 .idle).rest.head? = some (.rd v)) && decide ((ts.getD 1 .idle).rest.head? = some (.wr v))) = true) : ∃ ts, Reach entryPoints ts ∧ Race ts v := by
  obtain ⟨ts, hr, h⟩ := goes_any (two_begin hp hq cs ds) as h
  have h := Bool.and_eq_true_iff.mp h
  have h1 := of_decide_eq_true h.1
  have h2 := of_decide_eq_true h.2
  cases ts with
  | nil => cases h1
  | cons a ts =>
    cases ts with
    | nil => cases h2
    | cons b ts =>
      obtain ⟨ha, ra⟩ := a
      obtain ⟨hb, rb⟩ := b
      cases ra with
      | nil => cases h1
      | cons x ra =>
        cases h1
        cases rb with
        | nil => cases h2
        | cons y rb =>
          cases h2
          exact ⟨_, hr, 1, 0, _, _, _, _, by decide, rfl, rfl, rfl, .inl rfl⟩

/-- **C97, violated.** These are written by one thread while another one reads them: the pointer to the configuration (`add_srv`,
`append_entries` and `remove_srv` read it while the commit thread replaces it), the pointer to the last snapshot (the commit thread
reads it while a snapshot received from the leader replaces it), role, leader and term, the commit indices, and of each member the
time of its last answer and its heartbeat interval. -/
theorem raced_members : ∀ v ∈ [Var.config, .lastSnp, .status, .commits, .lastResp, .pace],
    ∃ ts, Reach entryPoints ts ∧ Race ts v := by
  intro v hv
  simp only [List.mem_cons, List.not_mem_nil, or_false] at hv
  rcases hv with hv | hv | hv | hv | hv | hv <;> subst hv
  · exact race_of (p := userCall) (q := commitRound) (by simp [entryPoints]) (by simp [entryPoints]) [1, 0] [1, 1, 1, 1, 0, 0, 0, 0, 0, 1] [(0, 1), (1, 19)]
      (by decide +kernel)
  · exact race_of (p := commitRound) (q := processReq) (by simp [entryPoints]) (by simp [entryPoints]) [1, 1, 1, 0, 0, 0, 1, 1, 0, 0, 1, 0, 1]
      [1, 1, 1, 1, 1, 1, 1, 1, 1, 0, 1, 1, 1, 0, 1, 1, 0, 0, 0, 1, 1, 0, 0, 0, 0, 0, 1, 1, 1] [(0, 13), (1, 29)] (by decide +kernel)
  · exact race_of (p := userCall) (q := processReq) (by simp [entryPoints]) (by simp [entryPoints]) [0, 0] [0, 0, 0, 0, 1, 1, 1, 1, 0] [(0, 1), (1, 4)]
      (by decide +kernel)
  · exact race_of (p := processReq) (q := commitRound) (by simp [entryPoints]) (by simp [entryPoints])
      [1, 1, 1, 1, 1, 1, 1, 1, 1, 0, 1, 1, 1, 0, 1, 1, 0, 0, 0, 1, 1, 0, 0, 0, 0, 0, 1, 1, 1]
      [1, 1, 1, 0, 0, 0, 1, 1, 0, 0, 1, 0, 1] [(0, 9), (1, 6)] (by decide +kernel)
  · exact race_of (p := userCall) (q := handlePeerResp) (by simp [entryPoints]) (by simp [entryPoints]) [0, 1] [1, 0, 1, 0, 1, 1, 1] [(0, 4), (1, 3)]
      (by decide +kernel)
  · exact race_of (p := handleHbTimeout) (q := handlePeerResp) (by simp [entryPoints]) (by simp [entryPoints]) [0, 1, 0] [1, 0, 1, 0, 1, 1, 1] [(0, 8)]
      (by decide +kernel)

end Cs.Locks
