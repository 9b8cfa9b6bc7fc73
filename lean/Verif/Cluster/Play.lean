import Verif.Cluster.Spec

/-!
# Concrete executions of a cluster

A script of moves is run by evaluation; what it yields is an execution.
-/

namespace Cs.Raft
open Cs

/-- A move of a script. Messages are named by the number of the event that sent them. -/
inductive Play where
  /-- the server starts -/
  | start (i : Int)
  /-- the server crashes -/
  | kill (i : Int)
  /-- the server gets a request -/
  | recv (k : Nat)
  /-- the server gets it and crashes after `n` effects -/
  | recvKill (k n : Nat)
  /-- the sender of request `k` gets the answer -/
  | back (k l : Nat)
  /-- the same for a pre-vote -/
  | preback (k l : Nat)
  /-- the sender of request `k` learns that it has failed -/
  | fail (k : Nat)
  /-- a client asks for a command to be replicated -/
  | client (i : Int) (data : Nat)
  /-- the same, and the server crashes after `n` effects -/
  | clientKill (i : Int) (data n : Nat)
  | election (i : Int)
  | heartbeat (i k : Int)
  | apply (i : Int)
  | tick (i : Int) (n : Nat)

/-- A request of a client. -/
def clientReq (data : Nat) : Req :=
  { type := .clientReq, term := 0, src := 0, dst := 0, lastTerm := 0, lastIdx := 0, commitIdx := 0,
    entries := [⟨0, .app data⟩] }

/-- The server and its input. -/
def Play.input (E : List Ev) : Play → Option (Int × Option Input × Option Nat)
  | .start i => some (i, none, none)
  | .kill i => some (i, some (.tick 0), some 0)
  | .recv k => match E[k]? with
    | some ⟨_, _, .send m⟩ => some (m.dst, some (.req m), none)
    | _ => none
  | .recvKill k n => match E[k]? with
    | some ⟨_, _, .send m⟩ => some (m.dst, some (.req m), some n)
    | _ => none
  | .back k l => match E[k]?, E[l]? with
    | some ⟨i, _, .send q⟩, some ⟨j, c, .reply r⟩ =>
      if j = q.dst ∧ c = some (.req q) ∧ q.type ≠ .prevoteReq then some (i, some (.peerResp q.type r), none) else none
    | _, _ => none
  | .preback k l => match E[k]?, E[l]? with
    | some ⟨i, _, .send q⟩, some ⟨j, c, .reply r⟩ =>
      if j = q.dst ∧ c = some (.req q) ∧ q.type = .prevoteReq then some (i, some (.extResp (.member q.dst) q.type r), none)
      else none
    | _, _ => none
  | .fail k => match E[k]? with
    | some ⟨i, _, .send q⟩ => if q.type ≠ .prevoteReq then some (i, some (.peerErr q), none) else none
    | _ => none
  | .client i data => some (i, some (.req (clientReq data)), none)
  | .clientKill i data n => some (i, some (.req (clientReq data)), some n)
  | .election i => some (i, some .electionTimeout, none)
  | .heartbeat i k => some (i, some (.hbTimeout k), none)
  | .apply i => some (i, some .apply, none)
  | .tick i n => some (i, some (.tick n), none)

/-- What a step does. -/
def Node.go (c : Setup) (n : Node) (x : Option Input) (stop : Option Nat) : Option (List Eff × Node) :=
  match n.up, x, stop with
  | none, none, none => some ([], ⟨n.disk, some (boot c.id c.params c.env n.disk)⟩)
  | some s, some x, some k =>
    some ((x.run { s with trace := [] }).2.trace.take k,
      ⟨n.disk.afterAll ((x.run { s with trace := [] }).2.trace.take k), none⟩)
  | some s, some x, none => match x.run { s with trace := [] } with
    | (.ok _, s') => some (s'.trace, ⟨n.disk.afterAll s'.trace, some s'⟩)
    | (.error .thrown, s') => some (s'.trace, ⟨n.disk.afterAll s'.trace, some s'⟩)
    | (.error _, s') => some (s'.trace, ⟨n.disk.afterAll s'.trace, none⟩)
  | _, _, _ => none

/-- One move. -/
def World.move (C : Cluster) (w : World) (p : Play) : Option World :=
  match p.input w.evs with
  | some (i, x, stop) =>
    if i ∈ C.ids then
      match (w.node i).go (C.setup i) x stop with
      | some (es, n) => some ⟨fun k => if k = i then n else w.node k, w.evs ++ es.map fun e => ⟨i, x, e⟩⟩
      | none => none
    else none
  | none => none

/-- A script. -/
def World.play (C : Cluster) (w : World) : List Play → Option World
  | [] => some w
  | p :: ps => match w.move C p with
    | some w' => w'.play C ps
    | none => none

theorem Play.deliver {E : List Ev} {p : Play} {i : Int} {x : Option Input} {k : Option Nat}
    (h : p.input E = some (i, x, k)) : ∀ y, x = some y → Deliver E i y := by
  intro y hy
  subst hy
  cases p with
  | start => cases h
  | kill => cases h; exact .tick
  | recv k =>
    simp only [Play.input] at h
    split at h
    · rename_i he
      cases h
      exact .request (List.mem_of_getElem? he) rfl rfl
    · cases h
  | recvKill k n =>
    simp only [Play.input] at h
    split at h
    · rename_i he
      cases h
      exact .request (List.mem_of_getElem? he) rfl rfl
    · cases h
  | back k l =>
    simp only [Play.input] at h
    split at h
    · rename_i h1 h2
      split at h
      · rename_i hc
        cases h
        exact .answer (List.mem_of_getElem? h1) rfl rfl hc.2.2 (List.mem_of_getElem? h2) hc.1 hc.2.1 rfl
      · cases h
    · cases h
  | preback k l =>
    simp only [Play.input] at h
    split at h
    · rename_i h1 h2
      split at h
      · rename_i hc
        cases h
        exact .prevoted (List.mem_of_getElem? h1) rfl rfl hc.2.2 (List.mem_of_getElem? h2) hc.1 hc.2.1 rfl
      · cases h
    · cases h
  | fail k =>
    simp only [Play.input] at h
    split at h
    · rename_i h1
      split at h
      · rename_i hc
        cases h
        exact .failed (List.mem_of_getElem? h1) rfl rfl hc
      · cases h
    · cases h
  | client => cases h; exact .client rfl (by intro e he; rw [List.mem_singleton.1 he]; rfl)
  | clientKill => cases h; exact .client rfl (by intro e he; rw [List.mem_singleton.1 he]; rfl)
  | election => cases h; exact .election
  | heartbeat => cases h; exact .heartbeat
  | apply => cases h; exact .apply
  | tick => cases h; exact .tick

theorem Node.go_step {c : Setup} {n n' : Node} {x : Option Input} {k : Option Nat} {es : List Eff}
    (h : n.go c x k = some (es, n')) : n.Step c x es n' := by
  rcases n with ⟨d, up⟩
  unfold Node.go at h
  split at h
  · rename_i h1
    replace h1 : up = none := h1
    subst h1
    cases h
    exact .boot
  · rename_i s x k h1
    replace h1 : up = some s := h1
    subst h1
    cases h
    exact .crash (List.take_prefix _ _)
  · rename_i s x h1
    replace h1 : up = some s := h1
    subst h1
    split at h
    · rename_i hr; cases h; exact .run hr
    · rename_i hr; cases h; exact .survive hr
    · rename_i s' _ hr
      cases h
      have : s'.trace <+: (x.run { s with trace := [] }).2.trace := by rw [hr]; exact List.prefix_refl _
      exact .crash this
  · cases h

theorem World.move_step {C : Cluster} {w w' : World} {p : Play} (h : w.move C p = some w') : C.Step w w' := by
  unfold World.move at h
  split at h
  · rename_i i x stop hi
    split at h
    · rename_i hm
      split at h
      · rename_i es n hg
        cases h
        exact .mk hm (Play.deliver hi) (Node.go_step hg)
      · cases h
    · cases h
  · cases h

theorem World.play_run {C : Cluster} {w0 : World} : ∀ {ps : List Play} {w w' : World}, C.Run w0 w →
    w.play C ps = some w' → C.Run w0 w'
  | [], w, w', h, hp => by cases hp; exact h
  | p :: ps, w, w', h, hp => by
    unfold World.play at hp
    split at hp
    · rename_i w1 h1
      exact World.play_run (.step h (World.move_step h1)) hp
    · cases hp

/-- What a script yields can be checked by evaluation. -/
def World.check (C : Cluster) (w : World) (ps : List Play) (P : World → Bool) : Bool :=
  match w.play C ps with
  | some w' => P w'
  | none => false

theorem World.witness {C : Cluster} (ps : List Play) (P : World → Bool) (h : C.init.check C ps P = true) :
    ∃ w, C.Reach w ∧ P w = true := by
  unfold World.check at h
  split at h
  · rename_i w' hw
    exact ⟨w', World.play_run .refl hw, h⟩
  · cases h

/-- The script leads on. -/
theorem World.witness' {C : Cluster} {w : World} (ps : List Play) (P : World → Bool) (h : w.check C ps P = true) :
    ∃ w', C.Run w w' ∧ P w' = true := by
  unfold World.check at h
  split at h
  · rename_i w' hw
    exact ⟨w', World.play_run .refl hw, h⟩
  · cases h

/-- Two states, one after the other. -/
def World.check2 (C : Cluster) (ps qs : List Play) (P : World → World → Bool) : Bool :=
  match C.init.play C ps with
  | some w => w.check C qs (P w)
  | none => false

theorem World.witness2 {C : Cluster} (ps qs : List Play) (P : World → World → Bool) (h : World.check2 C ps qs P = true) :
    ∃ w w', C.Reach w ∧ C.Run w w' ∧ P w w' = true := by
  unfold World.check2 at h
  split at h
  · rename_i w hw
    obtain ⟨w', h1, h2⟩ := World.witness' qs (P w) h
    exact ⟨w, w', World.play_run .refl hw, h1, h2⟩
  · cases h

/-! ## What can be read off a state by evaluation -/

/-- Server `i` had the effect. -/
def World.did (w : World) (i : Int) (e : Eff) : Bool := w.evs.any fun ev => decide (ev.node = i ∧ ev.eff = e)

theorem World.did_mem {w : World} {i : Int} {e : Eff} (h : w.did i e = true) : ∃ ev ∈ w.evs, ev.node = i ∧ ev.eff = e := by
  obtain ⟨ev, h1, h2⟩ := List.any_eq_true.1 h
  exact ⟨ev, h1, of_decide_eq_true h2⟩

/-- Server `i` leads. -/
def World.leadsB (w : World) (i : Int) (t : Nat) : Bool :=
  match (w.node i).up with
  | some s => decide (s.role = .leader ∧ s.term = t)
  | none => false

theorem World.leadsB_iff {w : World} {i : Int} {t : Nat} : w.leadsB i t = true ↔ w.Leads i t := by
  unfold World.leadsB World.Leads
  rcases h : (w.node i).up with _ | s
  · simp
  · simp

/-- Server `v` confirmed. -/
def confirmedB (E : List Ev) (v : Int) (t n : Nat) : Bool :=
  E.any fun ev => decide (ev.node = v) && match ev.eff with
    | .reply r => decide (r.type = .appendResp ∧ r.accepted = true ∧ r.term = t ∧ n < r.nextIdx)
    | _ => false

theorem confirmedB_sound {E : List Ev} {v : Int} {t n : Nat} (h : confirmedB E v t n = true) : Confirmed E v t n := by
  obtain ⟨ev, h1, h2⟩ := List.any_eq_true.1 h
  rw [Bool.and_eq_true] at h2
  obtain ⟨h2, h3⟩ := h2
  refine ⟨ev, h1, of_decide_eq_true h2, ?_⟩
  rcases he : ev.eff with _ | _ | _ | _ | _ | _ | _ | _ | _ | _ | _ | _ | _ | _
  all_goals rw [he] at h3
  all_goals first
    | (cases h3; done)
    | exact ⟨_, rfl, of_decide_eq_true h3⟩

/-- `Cluster.Backed`. -/
def Cluster.backedB (C : Cluster) (E : List Ev) (i : Int) (n : Nat) : Bool :=
  (E.any fun e0 => decide (e0.node = i ∧ e0.eff = .lead (C.diskAt E i).term)) &&
  decide (((C.diskAt E i).log.get? n).map Entry.term = some (C.diskAt E i).term) &&
  decide (C.ids.length < 2 * (C.ids.filter fun v => decide (v = i) || confirmedB E v (C.diskAt E i).term n).length)

theorem Cluster.backedB_sound {C : Cluster} (hC : C.Ok) {E : List Ev} {i : Int} {n : Nat} (h : C.backedB E i n = true) :
    C.Backed E i n := by
  unfold Cluster.backedB at h
  rw [Bool.and_eq_true, Bool.and_eq_true] at h
  obtain ⟨⟨h1, h2⟩, h3⟩ := h
  obtain ⟨e0, h4, h5⟩ := List.any_eq_true.1 h1
  refine ⟨⟨e0, h4, of_decide_eq_true h5⟩, of_decide_eq_true h2, _, ⟨?_, ?_, of_decide_eq_true h3⟩, ?_⟩
  · exact List.Pairwise.filter _ hC.nodup
  · exact fun v hv => (List.mem_filter.1 hv).1
  · intro v hv
    have := (List.mem_filter.1 hv).2
    rw [Bool.or_eq_true] at this
    rcases this with this | this
    · exact .inl (of_decide_eq_true this)
    · exact .inr (confirmedB_sound this)

/-- An append request was handled. -/
def Ev.followingB (ev : Ev) : Bool :=
  match ev.cause with
  | some (.req m) => decide (m.type = .appendReq)
  | _ => false

theorem Ev.followingB_sound {ev : Ev} (h : ev.followingB = true) : ∃ m, ev.Following m := by
  unfold Ev.followingB at h
  split at h
  · rename_i m hm; exact ⟨m, hm, of_decide_eq_true h⟩
  · cases h

/-- `Cluster.CarefulLeaders`. -/
def Cluster.carefulLeadersB (C : Cluster) (E : List Ev) : Bool :=
  (List.range E.length).all fun k => match E[k]? with
    | some ev => match ev.eff with
      | .advance n => ev.followingB || C.backedB (E.take k) ev.node n
      | _ => true
    | none => true

theorem Cluster.carefulLeadersB_sound {C : Cluster} (hC : C.Ok) {E : List Ev} (h : C.carefulLeadersB E = true) :
    C.CarefulLeaders E := by
  intro E1 ev E2 n hE he hf
  have hk : E[E1.length]? = some ev := by rw [hE, List.getElem?_append_right (Nat.le_refl _)]; simp
  have ht : E.take E1.length = E1 := by rw [hE]; simp
  have hlt : E1.length < E.length := by rw [hE]; simp
  have := List.all_eq_true.1 h E1.length (List.mem_range.2 hlt)
  rw [hk, ht] at this
  simp only [he] at this
  rw [Bool.or_eq_true] at this
  rcases this with this | this
  · obtain ⟨m, hm⟩ := Ev.followingB_sound this
    exact absurd hm (hf m)
  · exact Cluster.backedB_sound hC this

/-- `Cluster.OwnEntries`. -/
def Cluster.ownEntriesB (C : Cluster) (E : List Ev) : Bool :=
  (List.range E.length).all fun k => match E[k]? with
    | some ev => match ev.eff with
      | .advance n => ev.followingB ||
        decide (((C.diskAt (E.take k) ev.node).log.get? n).map Entry.term = some (C.diskAt (E.take k) ev.node).term)
      | _ => true
    | none => true

theorem Cluster.ownEntriesB_sound {C : Cluster} {E : List Ev} (h : C.ownEntriesB E = true) : C.OwnEntries E := by
  intro E1 ev E2 n hE he hf
  have hk : E[E1.length]? = some ev := by rw [hE, List.getElem?_append_right (Nat.le_refl _)]; simp
  have ht : E.take E1.length = E1 := by rw [hE]; simp
  have hlt : E1.length < E.length := by rw [hE]; simp
  have := List.all_eq_true.1 h E1.length (List.mem_range.2 hlt)
  rw [hk, ht] at this
  simp only [he] at this
  rw [Bool.or_eq_true] at this
  rcases this with this | this
  · obtain ⟨m, hm⟩ := Ev.followingB_sound this
    exact absurd hm (hf m)
  · exact of_decide_eq_true this

/-- `CarefulFollowers`. -/
def carefulFollowersB (E : List Ev) : Bool :=
  E.all fun ev => match ev.eff, ev.cause with
    | .advance n, some (.req m) => decide (m.type = .appendReq → n ≤ m.lastIdx + m.entries.length)
    | _, _ => true

theorem carefulFollowersB_sound {E : List Ev} (h : carefulFollowersB E = true) : CarefulFollowers E := by
  intro ev hev n m he hf
  have := List.all_eq_true.1 h ev hev
  rw [he, hf.1] at this
  exact of_decide_eq_true this hf.2

/-! ## Calm executions -/

/-- `Usual`, decided. -/
def Cluster.usualB (C : Cluster) (i : Int) (s : Srv) : Input → Bool
  | .electionTimeout => decide (s.role ≠ .leader)
  | .hbTimeout k => decide (k ∈ C.ids) && decide (k ≠ i)
  | .peerResp _ r => !(decide (s.role = .leader) && r.accepted) || decide (r.term = s.term)
  | _ => true

theorem Cluster.usualB_sound {C : Cluster} {i : Int} {s : Srv} {x : Input} (h : C.usualB i s x = true) : C.Usual i s x := by
  cases x with
  | electionTimeout => exact of_decide_eq_true (p := s.role ≠ .leader) h
  | hbTimeout k =>
    unfold Cluster.usualB at h
    rw [Bool.and_eq_true, decide_eq_true_eq, decide_eq_true_eq] at h
    exact h
  | peerResp ty r =>
    intro h1 h2
    have h : (!(decide (s.role = .leader) && r.accepted) || decide (r.term = s.term)) = true := h
    rw [h1, h2] at h
    simpa using h
  | _ => trivial

/-- A script all moves of which are usual. -/
def World.playCalm (C : Cluster) (w : World) : List Play → Option World
  | [] => some w
  | p :: ps =>
    match p.input w.evs with
    | some (i, some x, _) =>
      match (w.node i).up with
      | some s => if C.usualB i s x then (match w.move C p with
          | some w' => w'.playCalm C ps
          | none => none) else none
      | none => none
    | some (_, none, _) => match w.move C p with
      | some w' => w'.playCalm C ps
      | none => none
    | none => none

theorem World.playCalm_sound {C : Cluster} : ∀ (ps : List Play) {w w' : World}, C.Calm w → w.playCalm C ps = some w' → C.Calm w'
  | [], w, w', h, hp => by cases hp; exact h
  | p :: ps, w, w', h, hp => by
    have mv : ∀ {i : Int} {x : Option Input} {k : Option Nat} {w1 : World}, p.input w.evs = some (i, x, k) →
        (∀ s y, (w.node i).up = some s → x = some y → C.Usual i s y) → w.move C p = some w1 → C.Calm w1 := by
      intro i x k w1 hi hu hm
      unfold World.move at hm
      rw [hi] at hm
      simp only [] at hm
      by_cases hc : i ∈ C.ids
      · rw [if_pos hc] at hm
        rcases hg : (w.node i).go (C.setup i) x k with _ | ⟨es, n⟩
        · rw [hg] at hm; cases hm
        · rw [hg] at hm
          cases hm
          exact .step h hc (Play.deliver hi) hu (Node.go_step hg)
      · rw [if_neg hc] at hm; cases hm
    unfold World.playCalm at hp
    rcases hi : p.input w.evs with _ | ⟨i, _ | x, k⟩
    · rw [hi] at hp; cases hp
    · rw [hi] at hp
      simp only [] at hp
      rcases hm : w.move C p with _ | w1
      · rw [hm] at hp; cases hp
      · rw [hm] at hp
        exact playCalm_sound ps (mv hi (fun s y _ hy => by cases hy) hm) hp
    · rw [hi] at hp
      simp only [] at hp
      rcases hs : (w.node i).up with _ | s
      · rw [hs] at hp; cases hp
      · rw [hs] at hp
        simp only [] at hp
        by_cases hu : C.usualB i s x = true
        · rw [if_pos hu] at hp
          rcases hm : w.move C p with _ | w1
          · rw [hm] at hp; cases hp
          · rw [hm] at hp
            refine playCalm_sound ps (mv hi (fun s' y hs' hy => ?_) hm) hp
            cases hy
            rw [hs] at hs'
            cases hs'
            exact Cluster.usualB_sound hu
        · rw [if_neg hu] at hp; cases hp

/-- The end of a calm script, with a check. -/
theorem World.calm {C : Cluster} (ps : List Play) (f : World → Bool)
    (h : (match C.init.playCalm C ps with | some w => f w | none => false) = true) : ∃ w, C.Calm w ∧ f w = true := by
  rcases hp : C.init.playCalm C ps with _ | w
  · rw [hp] at h; cases h
  · rw [hp] at h; exact ⟨w, World.playCalm_sound ps .init hp, h⟩

/-! ## Executions with conditions on the steps -/

/-- Does the step satisfy `f`? -/
def passes (f : Int → Srv → Input → List Eff → Bool) (i : Int) (es : List Eff) : Option Srv → Option Input → Bool
  | some s, some y => f i s y es
  | _, _ => true

/-- A move that satisfies `f`. -/
def World.moveIf (C : Cluster) (f : Int → Srv → Input → List Eff → Bool) (w : World) (p : Play) : Option World :=
  match p.input w.evs with
  | some (i, x, stop) =>
    if i ∈ C.ids then
      match (w.node i).go (C.setup i) x stop with
      | some (es, n) =>
        if passes f i es (w.node i).up x = true then
          some ⟨fun k => if k = i then n else w.node k, w.evs ++ es.map fun e => ⟨i, x, e⟩⟩
        else none
      | none => none
    else none
  | none => none

/-- A script all moves of which satisfy `f`. -/
def World.playIf (C : Cluster) (f : Int → Srv → Input → List Eff → Bool) (w : World) : List Play → Option World
  | [] => some w
  | p :: ps => match w.moveIf C f p with
    | some w' => w'.playIf C f ps
    | none => none

theorem World.moveIf_only {C : Cluster} {f : Int → Srv → Input → List Eff → Bool} {P : Int → Srv → Input → List Eff → Prop}
    (hf : ∀ i s x es, f i s x es = true → P i s x es) {w w' : World} {p : Play} (h : C.Only P w)
    (hm : w.moveIf C f p = some w') : C.Only P w' := by
  unfold World.moveIf at hm
  rcases hi : p.input w.evs with _ | ⟨i, x, k⟩
  · rw [hi] at hm; cases hm
  rw [hi] at hm
  simp only [] at hm
  by_cases hc : i ∈ C.ids
  · rw [if_pos hc] at hm
    rcases hg : (w.node i).go (C.setup i) x k with _ | ⟨es, n⟩
    · rw [hg] at hm; cases hm
    rw [hg] at hm
    simp only [] at hm
    split at hm
    · rename_i hb
      cases hm
      refine .step h hc (Play.deliver hi) (fun s y hs hy => ?_) (Node.go_step hg)
      rw [hs, hy] at hb
      exact hf i s y es hb
    · cases hm
  · rw [if_neg hc] at hm; cases hm

theorem World.playIf_only {C : Cluster} {f : Int → Srv → Input → List Eff → Bool} {P : Int → Srv → Input → List Eff → Prop}
    (hf : ∀ i s x es, f i s x es = true → P i s x es) : ∀ (ps : List Play) {w w' : World}, C.Only P w →
    w.playIf C f ps = some w' → C.Only P w'
  | [], w, w', h, hp => by cases hp; exact h
  | p :: ps, w, w', h, hp => by
    unfold World.playIf at hp
    split at hp
    · rename_i w1 h1
      exact playIf_only hf ps (World.moveIf_only hf h h1) hp
    · cases hp

/-- The end of such a script, with a check. -/
theorem World.only {C : Cluster} {P : Int → Srv → Input → List Eff → Prop} (f : Int → Srv → Input → List Eff → Bool)
    (hf : ∀ i s x es, f i s x es = true → P i s x es) (ps : List Play) (g : World → Bool)
    (h : (match C.init.playIf C f ps with | some w => g w | none => false) = true) : ∃ w, C.Only P w ∧ g w = true := by
  rcases hp : C.init.playIf C f ps with _ | w
  · rw [hp] at h; cases h
  · rw [hp] at h; exact ⟨w, World.playIf_only hf ps .init hp, h⟩

theorem Cluster.Only.reach {C : Cluster} {P : Int → Srv → Input → List Eff → Prop} {w : World} (h : C.Only P w) :
    C.Reach w := by
  induction h with
  | init => exact .refl
  | step _ h1 h2 _ h4 ih => exact .step ih (.mk h1 h2 h4)

/-- `Timely`. -/
def timelyB (s : Srv) : Input → Bool
  | .peerResp _ r => decide (r.type = .appendResp → r.accepted = true → s.role = .leader ∧ r.term = s.term)
  | _ => true

theorem timelyB_sound {s : Srv} {x : Input} (h : timelyB s x = true) : Timely s x := by
  cases x with
  | peerResp ty r =>
    exact of_decide_eq_true (p := r.type = .appendResp → r.accepted = true → s.role = .leader ∧ r.term = s.term) h
  | _ => trivial

/-- `Fresh`. -/
def freshB (s : Srv) (es : List Eff) : Bool :=
  es.all (fun e => match e with | .lead _ => false | _ => true) || s.peers.all fun p => decide (p.matched = 0)

theorem freshB_sound {s : Srv} {es : List Eff} (h : freshB s es = true) : Fresh s es := by
  rintro ⟨t, ht⟩ p hp
  unfold freshB at h
  rw [Bool.or_eq_true] at h
  rcases h with h | h
  · exact absurd (List.all_eq_true.1 h _ ht) Bool.false_ne_true
  · exact of_decide_eq_true (List.all_eq_true.1 h p hp)

/-- Both. -/
def heedfulB (s : Srv) (x : Input) (es : List Eff) : Bool := timelyB s x && freshB s es

theorem heedfulB_sound {s : Srv} {x : Input} {es : List Eff} (h : heedfulB s x es = true) : Timely s x ∧ Fresh s es := by
  unfold heedfulB at h
  rw [Bool.and_eq_true] at h
  exact ⟨timelyB_sound h.1, freshB_sound h.2⟩

end Cs.Raft
