import Verif.Cluster.Gather
import Verif.Cluster.PropsCatch
import Verif.Cluster.WideInv

/-!
# A majority can always make progress: the execution
-/

namespace Cs.Raft
open Cs

/-! ## Specification -/

/-- The state after server `i` has handled `x`. -/
def World.put (w : World) (i : Int) (x : Input) (s' : Srv) : World :=
  ⟨fun k => if k = i then ⟨(w.node i).disk.afterAll s'.trace, some s'⟩ else w.node k, w.evs ++ s'.trace.map fun e => ⟨i, some x, e⟩⟩

/-- Executions from `w` on in which only the servers `M` do something, every input is handled to its end, nothing crashes, and clocks
do not go back. -/
inductive Cluster.Work (C : Cluster) (M : List Int) (w : World) : World → Prop
  | refl : Work C M w w
  | step {w1 : World} {i : Int} {x : Input} {s s' : Srv} : Work C M w w1 → i ∈ M → (w1.node i).up = some s → Deliver w1.evs i x →
      (∀ n, x = .tick n → s.now ≤ n) → x.run { s with trace := [] } = (.ok ⟨⟩, s') → Work C M w (w1.put i x s')

variable {C : Cluster} {M : List Int} {w w1 w2 : World}

theorem Cluster.Work.trans (h1 : C.Work M w w1) (h2 : C.Work M w1 w2) : C.Work M w w2 := by
  induction h2 with
  | refl => exact h1
  | step _ a b c d e ih => exact .step ih a b c d e

theorem put_step {i : Int} {x : Input} {s s' : Srv} (hi : i ∈ C.ids) (hs : (w.node i).up = some s) (hd : Deliver w.evs i x)
    (hr : x.run { s with trace := [] } = (.ok ⟨⟩, s')) : C.Step w (w.put i x s') := by
  have h : w.node i = ⟨(w.node i).disk, some s⟩ := by rw [← hs]
  refine .mk hi (fun y hy => by cases hy; exact hd) ?_
  have := Node.Step.run (c := C.setup i) (d := (w.node i).disk) hr
  rw [← h] at this
  exact this

theorem Cluster.Run.trans (h1 : C.Run w w1) (h2 : C.Run w1 w2) : C.Run w w2 := by
  induction h2 with
  | refl => exact h1
  | step _ a ih => exact .step ih a

theorem Cluster.Work.run (hM : ∀ i ∈ M, i ∈ C.ids) (h : C.Work M w w1) : C.Run w w1 := by
  induction h with
  | refl => exact .refl
  | step _ a b c _ e ih => exact .step ih (put_step (hM _ a) b c e)

theorem Cluster.Work.evs (h : C.Work M w w1) : ∀ ev ∈ w.evs, ev ∈ w1.evs := by
  induction h with
  | refl => exact fun _ h => h
  | step _ _ _ _ _ _ ih => exact fun ev hev => List.mem_append_left _ (ih ev hev)

/-- Servers run with the parameters they were given. -/
theorem Cluster.Run.params (h : C.Run w w1) (h0 : ∀ i s, (w.node i).up = some s → s.params = C.params i) :
    ∀ i s, (w1.node i).up = some s → s.params = C.params i := by
  induction h with
  | refl => exact h0
  | @step w2 w3 _ st ih =>
    cases st with
    | @mk i x es n hi hx st =>
      intro k s hs
      by_cases hk : k = i
      · subst hk
        simp only [if_true] at hs
        have hw : w2.node k = ⟨(w2.node k).disk, (w2.node k).up⟩ := rfl
        rw [hw] at st
        generalize hu : (w2.node k).up = up at st
        cases st with
        | @run d s0 s' x hr =>
          cases hs
          have h1 := (sf_run (K := Peer.HbIn) x { s0 with trace := [] }).params
          rw [hr] at h1
          exact h1.trans (ih k s0 hu)
        | @survive d s0 s' x hr =>
          cases hs
          have h1 := (sf_run (K := Peer.HbIn) x { s0 with trace := [] }).params
          rw [hr] at h1
          exact h1.trans (ih k s0 hu)
        | crash => cases hs
        | boot => cases hs; rfl
      · simp only [if_neg hk] at hs
        exact ih k s hs

theorem Cluster.Reach.params (h : C.Reach w) {i : Int} {s : Srv} (hs : (w.node i).up = some s) : s.params = C.params i :=
  Cluster.Run.params h (fun _ _ h => by cases h) i s hs

/-! ## States of the servers of the majority -/

def nodeAt (S : Int → Srv) (i : Int) (s : Srv) (k : Int) : Srv := if k = i then s else S k

theorem nodeAt_self (S : Int → Srv) (i : Int) (s : Srv) : nodeAt S i s i = s := if_pos rfl
theorem nodeAt_ne {S : Int → Srv} {i k : Int} {s : Srv} (h : k ≠ i) : nodeAt S i s k = S k := if_neg h
theorem nodeAt_setAt (S : Int → Srv) (i : Int) (s s' : Srv) : nodeAt (nodeAt S i s) i s' = nodeAt S i s' := by
  funext k
  unfold nodeAt
  by_cases h : k = i
  · rw [if_pos h, if_pos h]
  · rw [if_neg h, if_neg h, if_neg h]

/-- The servers of `M` are up, in states `S`, in a reachable state of the cluster. -/
structure Running (C : Cluster) (M : List Int) (w : World) (S : Int → Srv) : Prop where
  sub : ∀ i ∈ M, i ∈ C.ids
  reach : C.Reach w
  up : ∀ i ∈ M, (w.node i).up = some (S i)

variable {S : Int → Srv} {i b : Int}

theorem Running.put (h : Running C M w S) (hi : i ∈ M) {x : Input} {s' : Srv} (hd : Deliver w.evs i x)
    (hr : x.run { S i with trace := [] } = (.ok ⟨⟩, s')) (ht : ∀ n, x = .tick n → (S i).now ≤ n) :
    C.Work M w (w.put i x s') ∧ Running C M (w.put i x s') (nodeAt S i s') ∧ ∀ e ∈ s'.trace, (⟨i, some x, e⟩ : Ev) ∈ (w.put i x s').evs := by
  refine ⟨.step .refl hi (h.up i hi) hd ht hr, ⟨h.sub, .step h.reach (put_step (h.sub i hi) (h.up i hi) hd hr), fun k hk => ?_⟩, fun e he => ?_⟩
  · show (if k = i then _ else w.node k : Node).up = _
    unfold nodeAt
    by_cases hki : k = i
    · rw [if_pos hki, if_pos hki]
    · rw [if_neg hki, if_neg hki]; exact h.up k hk
  · exact List.mem_append_right _ (List.mem_map.2 ⟨e, he, rfl⟩)

/-- What is known about each of them. -/
structure Fine (C : Cluster) (i : Int) (s : Srv) : Prop where
  id : s.id = i
  start : s.log.start = 1
  ids : s.peers.map Peer.id = C.ids.filter (· != i)
  catching : s.catchingUp = false
  steps : s.stepsToDown = 0
  params : s.params = C.params i

theorem Running.fine (hC : C.Ok) (h : Running C M w S) (hi : i ∈ M) : Fine C i (S i) := by
  obtain ⟨ps, g, hI⟩ := h.reach.inv hC
  obtain ⟨g1, _⟩ := (hI.linked.nodes i (h.sub i hi)).up _ (h.up i hi)
  exact ⟨g1.id, g1.start, g1.ids, g1.catching, g1.steps, h.reach.params (h.up i hi)⟩

theorem fine_length (hC : C.Ok) (hi : i ∈ C.ids) {s : Srv} (h : Fine C i s) : s.peers.length + 1 = C.ids.length := by
  have := congrArg List.length h.ids
  rw [List.length_map] at this
  rw [this]
  exact others_length hC.nodup hi

theorem fine_mem {s : Srv} (h : Fine C i s) {k : Int} (hk : k ∈ C.ids) (hne : k ≠ i) : k ∈ s.peers.map Peer.id := by
  rw [h.ids]; exact List.mem_filter.2 ⟨hk, by simpa using hne⟩

/-! ## Candidates -/

/-- A server that has asked for votes in term `t`. -/
structure Campaigns (s s' : Srv) (t : Nat) (E : List Ev) : Prop where
  id : s'.id = s.id
  term : s'.term = t
  role : s'.role = .candidate
  log : s'.log = s.log
  params : s'.params = s.params
  applied : s'.smCommit = s.smCommit
  now : s'.now = s.now
  peers : s'.peers = s.peers
  granted : s'.votesGranted = 1
  voted : s'.voted = [s.id]
  open_ : s'.electionCompleted = false
  ballots : ∀ k ∈ s.peers.map Peer.id, ∃ ev ∈ E, ev.node = s.id ∧ ev.eff = .send (s'.ballot k)

theorem stand_once (hC : C.Ok) (h : Running C M w S) (hi : i ∈ M) (hl : (S i).role ≠ .leader) (hp : (C.params i).prevote = false)
    (h2 : 2 ≤ C.ids.length) : ∃ w' s', C.Work M w w' ∧ Running C M w' (nodeAt S i s') ∧ Campaigns (S i) s' ((S i).term + 1) w'.evs := by
  have f := h.fine hC hi
  have hlen := fine_length hC (h.sub i hi) f
  have hr := timeout_run hl f.steps f.catching (fun hc => by rw [hc] at hlen; simp at hlen; omega) (by rw [f.params]; exact hp) f.start
  obtain ⟨w1, a1, e1⟩ := h.put hi .election hr (fun n hn => by cases hn)
  refine ⟨_, _, w1, a1, rfl, rfl, rfl, rfl, rfl, rfl, rfl, rfl, rfl, rfl, rfl, fun k hk => ?_⟩
  refine ⟨_, e1 (.send ((S i).stood.ballot k)) ?_, f.id.symm, rfl⟩
  exact List.mem_append_right _ (List.mem_map.2 ⟨k, hk, rfl⟩)

theorem stand_to (hC : C.Ok) (hp : ∀ i ∈ M, (C.params i).prevote = false) (h2 : 2 ≤ C.ids.length) :
    ∀ (n : Nat) {w : World} {S : Int → Srv}, Running C M w S → i ∈ M → (S i).role ≠ .leader →
    ∃ w' s', C.Work M w w' ∧ Running C M w' (nodeAt S i s') ∧ Campaigns (S i) s' ((S i).term + 1 + n) w'.evs
  | 0, w, S, h, hi, hl => stand_once hC h hi hl (hp i hi) h2
  | n + 1, w, S, h, hi, hl => by
    obtain ⟨w1, s1, a1, a2, a3⟩ := stand_once hC h hi hl (hp i hi) h2
    have e1 := nodeAt_self S i s1
    obtain ⟨w2, s2, b1, b2, b3⟩ := stand_to hC hp h2 n a2 hi (by rw [e1, a3.role]; exact fun h => (by cases h))
    rw [e1] at b3
    rw [nodeAt_setAt] at b2
    refine ⟨w2, s2, a1.trans b1, b2, b3.id.trans a3.id, ?_, b3.role, b3.log.trans a3.log, b3.params.trans a3.params,
      b3.applied.trans a3.applied, b3.now.trans a3.now, b3.peers.trans a3.peers, b3.granted, by rw [b3.voted, a3.id], b3.open_, ?_⟩
    · rw [b3.term, a3.term]; omega
    · intro k hk
      obtain ⟨ev, c1, c2, c3⟩ := b3.ballots k (by rw [a3.peers]; exact hk)
      exact ⟨ev, c1, c2.trans a3.id, c3⟩

/-- The logs of the servers, and what they have applied, are the same. -/
def SameLogs (M : List Int) (S S' : Int → Srv) : Prop := ∀ j ∈ M, (S' j).log = (S j).log ∧ (S' j).smCommit = (S j).smCommit

theorem SameLogs.trans {S1 S2 S3 : Int → Srv} (h1 : SameLogs M S1 S2) (h2 : SameLogs M S2 S3) : SameLogs M S1 S3 :=
  fun j hj => ⟨(h2 j hj).1.trans (h1 j hj).1, (h2 j hj).2.trans (h1 j hj).2⟩

theorem SameLogs.set {s' : Srv} (h1 : s'.log = (S i).log) (h2 : s'.smCommit = (S i).smCommit) : SameLogs M S (nodeAt S i s') := by
  intro j _
  by_cases hj : j = i
  · subst hj; rw [nodeAt_self]; exact ⟨h1, h2⟩
  · rw [nodeAt_ne hj]; exact ⟨rfl, rfl⟩

/-- A request for votes of a later term is delivered. -/
theorem ballot_put (h : Running C M w S) {j : Int} (hj : j ∈ M) {q : Req} {ev : Ev} (he : ev ∈ w.evs) (hs : ev.eff = .send q) (hd : q.dst = j)
    (ht : q.type = .voteReq) (hlt : (S j).term < q.term) :
    ∃ w' F', C.Work M w w' ∧ Running C M w' (nodeAt S j F') ∧ SameLogs M S (nodeAt S j F') ∧ F'.term = q.term ∧ F'.role = .follower ∧
      (upToDate q (S j).log = true → (⟨j, some (.req q), .reply ((S j).grant q)⟩ : Ev) ∈ w'.evs) := by
  obtain ⟨F', r1, r2, r3, r4, r5, r6⟩ := ballot_run (F := S j) ht hlt
  obtain ⟨w1, a1, e1⟩ := h.put hj (.request he hs hd) r1 (fun n hn => by cases hn)
  exact ⟨_, F', w1, a1, .set r2 r5, r3, r4, fun hu => e1 _ (r6 hu)⟩

/-- A leader gives up when another server of the majority asks for votes. -/
theorem depose (hC : C.Ok) (hp : ∀ i ∈ M, (C.params i).prevote = false) (h2 : 2 ≤ C.ids.length) (h : Running C M w S) {v : Int} (hb : b ∈ M)
    (hv : v ∈ M) (hl : (S v).role ≠ .leader) :
    ∃ w' S', C.Work M w w' ∧ Running C M w' S' ∧ SameLogs M S S' ∧ (S' b).role ≠ .leader := by
  by_cases hbl : (S b).role = .leader
  · have hne : b ≠ v := fun hc => hl (by rw [← hc]; exact hbl)
    obtain ⟨w1, s1, a1, a2, a3⟩ := stand_to hC hp h2 (S b).term h hv hl
    have hbs : nodeAt S v s1 b = S b := nodeAt_ne hne
    obtain ⟨ev, c1, c2, c3⟩ := a3.ballots b (fine_mem (h.fine hC hv) (h.sub b hb) hne)
    obtain ⟨w2, F', d1, d2, d3, d4, d5, _⟩ := ballot_put a2 hb c1 c3 rfl rfl (by
      rw [hbs]
      show (S b).term < s1.term
      rw [a3.term]; omega)
    refine ⟨w2, _, a1.trans d1, d2, (SameLogs.set a3.log a3.applied).trans d3, ?_⟩
    rw [nodeAt_self, d5]; exact fun h => (by cases h)
  · exact ⟨w, S, .refl, h, fun j _ => ⟨rfl, rfl⟩, hbl⟩

theorem bound_exists {α : Type} (f : α → Nat) : ∀ l : List α, ∃ m, ∀ a ∈ l, f a ≤ m
  | [] => ⟨0, fun _ h => by cases h⟩
  | a :: l => by
    obtain ⟨m, hm⟩ := bound_exists f l
    refine ⟨f a + m, fun x hx => ?_⟩
    rcases List.mem_cons.1 hx with rfl | hx
    · omega
    · have := hm x hx; omega

/-- A server stands in a term later than those of all others, after some time. -/
theorem stand_above (hC : C.Ok) (hp : ∀ i ∈ M, (C.params i).prevote = false) (h2 : 2 ≤ C.ids.length) (h : Running C M w S) (hb : b ∈ M)
    (hl : (S b).role ≠ .leader) :
    ∃ w' s0, C.Work M w w' ∧ Running C M w' (nodeAt S b s0) ∧ s0.log = (S b).log ∧ s0.smCommit = (S b).smCommit ∧
      (∀ j ∈ M, (S j).term < s0.term) ∧ Polled s0 [] s0 ∧
      ∀ k ∈ s0.peers.map Peer.id, ∃ ev ∈ w'.evs, ev.node = b ∧ ev.eff = .send (s0.ballot k) := by
  obtain ⟨t, ht⟩ := bound_exists Peer.lastResp (S b).peers
  obtain ⟨m, hm⟩ := bound_exists (fun j => (S j).term) M
  have f := h.fine hC hb
  have hr : (Input.tick ((S b).now + t)).run { S b with trace := [] } = (.ok ⟨⟩, { S b with trace := [], now := (S b).now + t }) := rfl
  obtain ⟨w1, a1, e1⟩ := h.put hb .tick hr (fun n hn => by cases hn; omega)
  have e2 := nodeAt_self S b { S b with trace := [], now := (S b).now + t }
  obtain ⟨w2, s0, b1, b2, b3⟩ := stand_to hC hp h2 m a1 hb (by rw [e2]; exact hl)
  rw [e2] at b3
  rw [nodeAt_setAt] at b2
  refine ⟨w2, s0, w1.trans b1, b2, b3.log, b3.applied, fun j hj => ?_, ⟨rfl, rfl, rfl, rfl, rfl, rfl, b3.role, b3.open_, b3.granted, ?_, ?_, ?_⟩, ?_⟩
  · rw [b3.term]
    have := hm j hj
    show _ < (S b).term + 1 + m
    omega
  · rw [b3.voted]; rfl
  · intro k hk
    rw [b3.voted] at hk
    exact .inl ((List.mem_singleton.1 hk).trans b3.id.symm)
  · intro p hp
    rw [b3.peers] at hp
    have := ht p hp
    refine ⟨?_, fun h => by cases h⟩
    rw [b3.now]
    show p.lastResp ≤ (S b).now + t
    omega
  · intro k hk
    rw [b3.peers] at hk
    obtain ⟨ev, c1, c2, c3⟩ := b3.ballots k hk
    exact ⟨ev, c1, c2.trans f.id, c3⟩

end Cs.Raft
