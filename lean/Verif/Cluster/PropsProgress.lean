import Verif.Cluster.Alone
import Verif.Cluster.Witness

/-!
# C101: a majority can always make progress

Whatever happened so far -- crashes, lost, delayed and repeated messages, any number of elections -- a majority of the servers of a
cluster that is up and can exchange messages can elect a leader, and get a command of a client stored, committed and applied: no
state that is reached rules that out. `Cluster.Work` (Cluster/Progress) says what the majority does for that: it handles timeouts,
messages it sends itself and the request of the client, each to its end, while nothing crashes and nothing else happens.
-/

namespace Cs.Raft
open Cs

/-! ## Specification -/

/-- The command `d` of a client, accepted by `b` in the execution from `w` to `w'`, has index `N`: `b` leads, all of `M` have the command
there, and it is committed. -/
structure Cluster.Done (M : List Int) (d : Nat) (w w' : World) (b : Int) (N : Nat) (e : Entry) : Prop where
  member : b ∈ M
  data : e.val = .app d
  leads : w'.Leads b e.term
  accepted : ∃ es ev r, w'.evs = w.evs ++ es ∧ ev ∈ es ∧ ev.node = b ∧ ev.cause = some (.req (command d)) ∧ ev.eff = .reply r ∧
    r.accepted = true ∧ r.nextIdx = N + 1
  stored : ∀ j ∈ M, ∃ s, (w'.node j).up = some s ∧ s.log.get? N = some e
  committed : ∃ s, (w'.node b).up = some s ∧ N ≤ s.quickCommit

/-- In the execution from `w` to `w'`, server `b` has handed entry `e` with index `N` to its state machine. -/
def World.Applied (w w' : World) (b : Int) (N : Nat) (e : Entry) : Prop :=
  ∃ es ev, w'.evs = w.evs ++ es ∧ ev ∈ es ∧ ev.node = b ∧ ev.eff = .commit N e

variable {C : Cluster} {M : List Int} {w : World}

/-! ## Proof -/

/-- The last steps: what is committed is applied, if possible. -/
theorem done_of {S : Int → Srv} {w1 : World} {b : Int} {N d : Nat} {e : Entry} (hC : C.Ok) (hr : Running C M w1 S) (hw : C.Work M w w1)
    (hb : b ∈ M) (hd : e.val = .app d) (hl : (S b).role = .leader) (ht : (S b).term = e.term) (hq : N ≤ (S b).quickCommit)
    (hn : N < (S b).log.next) (hs : ∀ j ∈ M, (S j).log.get? N = some e)
    (ha : ∃ es ev r, w1.evs = w.evs ++ es ∧ ev ∈ es ∧ ev.node = b ∧ ev.cause = some (.req (command d)) ∧ ev.eff = .reply r ∧
      r.accepted = true ∧ r.nextIdx = N + 1) :
    ∃ w', C.Work M w w' ∧ Cluster.Done M d w w' b N e ∧ ((S b).smCommit < N → w.Applied w' b N e) := by
  by_cases hc : (S b).smCommit < N
  · obtain ⟨w4, s4, c1, c2, c3, c4, c5, c6, es4, c7, ev4, c8, c9⟩ := apply_all hC hb (N := N) (e := e) hd (N - 1 - (S b).smCommit) hr
      (by omega) hq hn (hs b hb)
    have e4 := nodeAt_self S b s4
    obtain ⟨es, ev, r, a1, a2, a3⟩ := ha
    have all : w4.evs = w.evs ++ (es ++ es4) := by rw [c7, a1]; simp only [List.append_assoc]
    refine ⟨w4, hw.trans c1, ⟨hb, hd, ⟨s4, by rw [c2.up b hb, e4], c3.trans hl, c4.trans ht⟩, ⟨_, ev, r, all, List.mem_append_left _ a2, a3⟩,
      fun j hj => ⟨_, c2.up j hj, ?_⟩, ⟨s4, by rw [c2.up b hb, e4], by rw [c6]; exact hq⟩⟩, fun _ => ⟨_, ev4, all, List.mem_append_right _ c8, c9⟩⟩
    by_cases hjb : j = b
    · rw [hjb, e4, c5]; exact hs b hb
    · rw [nodeAt_ne hjb]; exact hs j hj
  · exact ⟨w1, hw, ⟨hb, hd, ⟨_, hr.up b hb, hl, ht⟩, ha, fun j hj => ⟨_, hr.up j hj, hs j hj⟩, _, hr.up b hb, hq⟩, fun h => absurd h hc⟩

/-- Two servers or more. -/
theorem progress_many {S : Int → Srv} (hC : C.Ok) (hr : Running C M w S) (h2 : 2 ≤ C.ids.length) (hM : C.Majority M)
    (hset : ∀ i ∈ M, (C.params i).prevote = false ∧ 0 < (C.params i).maxAppend ∧ 0 ≤ (C.params i).electionUpper)
    (hlim : ∀ i ∈ M, (S i).log.next + 2 ≤ 2 ^ 64) (hv : ∃ v ∈ M, (S v).role ≠ .leader) (d : Nat) :
    ∃ w' b N e, C.Work M w w' ∧ Cluster.Done M d w w' b N e ∧ ((S b).smCommit < (S b).log.next → w.Applied w' b N e) := by
  obtain ⟨b, w1, s0, S1, hb, _, k1, k2, k3, k4, k5⟩ := elect hC (fun i hi => (hset i hi).1) (fun i hi => (hset i hi).2.1) hr hM hv h2
  have q3 := hlim b hb
  obtain ⟨w2, S2, a1, a2, a3, a4, a5, ⟨r, ev, es, a6, a7, a8, a9, a10, a11, a12⟩, a13⟩ :=
    client_put hC (fun i hi => (hset i hi).2.2) h2 hb k4 k5 d
  have hnext := Log.next_append (S1 b).log ⟨(S1 b).term, .app d⟩
  have hget := Log.get?_append_self (S1 b).log ⟨(S1 b).term, .app d⟩
  rw [k2] at a4 a5
  obtain ⟨w3, S3, dn, b1, b2, b3, b4, b5, b6⟩ := serve_all hC hb (hset b hb).2.1 (by rw [hnext]; omega) (M.filter (· != b)) [] (hM.1.filter _)
    (fun k hk => by
      obtain ⟨x1, x2⟩ := List.mem_filter.1 hk
      exact ⟨x1, by simpa using x2, fun h => by cases h⟩) a2 a13
  have hl := filter_length hM.1 hb
  have hmaj := hM.2.2
  have f := b2.fine hC hb
  have hlen := fine_length hC (b2.sub b hb) f
  rw [List.length_nil, Nat.add_zero] at b6
  have hq := b4.commit (by omega) (fun hc => by rw [hc, List.length_nil] at b6; omega)
  rw [hnext] at hq
  have hsm : (S3 b).smCommit = (S b).smCommit := by rw [b3, a3, k3]
  obtain ⟨es1, m1⟩ := k1.more
  obtain ⟨es3, m3⟩ := b1.more
  have all : w3.evs = w.evs ++ (es1 ++ es ++ es3) := by rw [m3, a6, m1]; simp only [List.append_assoc]
  obtain ⟨w', c1, c2, c3⟩ := done_of (e := ⟨(S1 b).term, .app d⟩) (d := d) (N := (S1 b).log.next) hC b2 (k1.trans (a1.trans b1)) hb rfl b4.lead b4.term hq
    (by rw [b4.log, hnext]; omega) (fun j hj => by
      by_cases hjb : j = b
      · rw [hjb, b4.log]; exact hget
      · have hjd : j ∈ dn := b5 j (List.mem_append_left _ (List.mem_filter.2 ⟨hj, by simpa using hjb⟩))
        rw [(b4.has j hjd).2.2 _ (by rw [hnext]; omega)]
        exact hget) ⟨_, ev, r, all, List.mem_append_left _ (List.mem_append_right _ a7), a8, a9, a10, a11, a12⟩
  exact ⟨w', b, _, _, c1, c2, fun h => c3 (by rw [hsm]; omega)⟩

/-- One server. -/
theorem progress_one {S : Int → Srv} (hC : C.Ok) (hr : Running C M w S) (h2 : C.ids.length < 2) (hM : C.Majority M)
    (hset : ∀ i ∈ M, (C.params i).prevote = false) (d : Nat) :
    ∃ w' b N e, C.Work M w w' ∧ Cluster.Done M d w w' b N e ∧ ((S b).smCommit < (S b).log.next → w.Applied w' b N e) := by
  obtain ⟨b, hb⟩ := List.exists_mem_of_ne_nil M fun hc => by have := hM.2.2; rw [hc, List.length_nil] at this; omega
  have one : ∀ j ∈ M, j = b := by
    intro j hj
    obtain ⟨a, ha⟩ : ∃ a, C.ids = [a] := by
      cases hx : C.ids with
      | nil => have := hM.2.1 b hb; rw [hx] at this; cases this
      | cons a l =>
        cases l with
        | nil => exact ⟨a, rfl⟩
        | cons c l => rw [hx] at h2; simp only [List.length_cons] at h2; omega
    have h1 := hM.2.1 j hj
    have h3 := hM.2.1 b hb
    rw [ha] at h1 h3
    rw [List.mem_singleton.1 h1, List.mem_singleton.1 h3]
  have hp : ∀ {w : World} {S : Int → Srv}, Running C M w S → (S b).peers = [] := by
    intro w S hr
    have := fine_length hC (hr.sub b hb) (hr.fine hC hb)
    exact List.length_eq_zero_iff.1 (by omega)
  obtain ⟨w1, s1, a1, a2, a3⟩ : ∃ w1 s1, C.Work M w w1 ∧ Running C M w1 (nodeAt S b s1) ∧ Sole (S b) s1 := by
    by_cases hl : (S b).role = .leader
    · refine ⟨w, S b, .refl, ⟨hr.sub, hr.reach, fun j hj => ?_⟩, ⟨hl, hp hr, rfl, Nat.le_refl _, Nat.le_succ _⟩⟩
      rw [one j hj, nodeAt_self]; exact hr.up b hb
    · have f := hr.fine hC hb
      obtain ⟨s1, e1, e2⟩ := sole_timeout hl f.steps f.catching (hp hr) (by rw [f.params]; exact hset b hb)
      obtain ⟨c1, c2, _⟩ := hr.put hb .election e1 (fun n hn => by cases hn)
      exact ⟨_, s1, c1, c2, e2⟩
  obtain ⟨s2, b1, b2, b3, b4, b5, b6, r, b7, b8, b9⟩ := sole_client (s := nodeAt S b s1 b) (by rw [nodeAt_self]; exact a3.role)
    (by rw [nodeAt_self]; exact a3.peers) d
  obtain ⟨c1, c2, _⟩ := a2.put (x := .req (command d)) hb (.client rfl fun e he => by rw [List.mem_singleton.1 he]; rfl) b1 (fun n hn => by cases hn)
  have e2 := nodeAt_self (nodeAt S b s1) b s2
  rw [nodeAt_self] at b3 b4 b5 b6 b9
  have hnext := Log.next_append s1.log ⟨s1.term, .app d⟩
  have hget := Log.get?_append_self s1.log ⟨s1.term, .app d⟩
  obtain ⟨es1, m1⟩ := a1.more
  obtain ⟨w', d1, d2, d3⟩ := done_of (e := ⟨s1.term, .app d⟩) (d := d) (N := s1.log.next) hC c2 (a1.trans c1) hb rfl (by rw [e2]; exact b2)
    (by rw [e2]; exact b3) (by rw [e2]; exact b6) (by rw [e2, b4, hnext]; omega) (fun j hj => by rw [one j hj, e2, b4]; exact hget)
    ⟨es1 ++ s2.trace.map fun e => ⟨b, some (.req (command d)), e⟩, _, r, by show _ ++ _ = _; rw [m1, List.append_assoc],
      List.mem_append_right _ (List.mem_map.2 ⟨_, b7, rfl⟩), rfl, rfl, rfl, b8, b9⟩
  have g1 := a3.applied
  have g2 := a3.next
  exact ⟨w', b, _, _, d1, d2, fun h => d3 (by rw [e2, b5]; omega)⟩

/-! ## The property -/

/-- C101: in every state an execution gets to, if a majority is up, one of it at least not being leader (if there are several servers),
it can get a command of a client accepted, stored by all of them and committed, and also applied if the state machine of the server that
becomes leader has not applied more than its log has (see C36), with no help from others. Partial: for clusters without pre-votes (C89
shows that with them it is false), compaction, snapshots and changes of the configuration; no log has got to the end of the 64-bit
numbers. -/
theorem majority_progress_partial (hC : C.Ok) (hw : C.Reach w) (hM : C.Majority M)
    (hset : ∀ i ∈ M, (C.params i).prevote = false ∧ 0 < (C.params i).maxAppend ∧ 0 ≤ (C.params i).electionUpper)
    (hup : ∀ i ∈ M, ∃ s, (w.node i).up = some s ∧ s.log.next + 2 ≤ 2 ^ 64)
    (hv : 2 ≤ C.ids.length → ∃ v ∈ M, ∃ s, (w.node v).up = some s ∧ s.role ≠ .leader) (d : Nat) :
    ∃ w' b N e, C.Work M w w' ∧ Cluster.Done M d w w' b N e ∧
      ((∀ s, (w.node b).up = some s → s.smCommit < s.log.next) → w.Applied w' b N e) := by
  obtain ⟨S, hS⟩ : ∃ S : Int → Srv, ∀ i ∈ M, (w.node i).up = some (S i) := by
    obtain ⟨b, hb⟩ := List.exists_mem_of_ne_nil M fun hc => by have := hM.2.2; rw [hc, List.length_nil] at this; omega
    obtain ⟨s, _, _⟩ := hup b hb
    exact ⟨fun i => ((w.node i).up.getD s), fun i hi => by obtain ⟨s, h, _⟩ := hup i hi; simp only [h, Option.getD_some]⟩
  have hr : Running C M w S := ⟨hM.2.1, hw, hS⟩
  have key : ∃ w' b N e, C.Work M w w' ∧ Cluster.Done M d w w' b N e ∧ ((S b).smCommit < (S b).log.next → w.Applied w' b N e) := by
    rcases Nat.lt_or_ge C.ids.length 2 with h2 | h2
    · exact progress_one hC hr h2 hM (fun i hi => (hset i hi).1) d
    · refine progress_many hC hr h2 hM hset (fun i hi => ?_) ?_ d
      · obtain ⟨s, h1, h3⟩ := hup i hi
        rw [hS i hi] at h1
        cases h1
        exact h3
      · obtain ⟨v, hv, s, h1, h3⟩ := hv h2
        refine ⟨v, hv, ?_⟩
        rw [hS v hv] at h1
        cases h1
        exact h3
  obtain ⟨w', b, N, e, h1, h2, h3⟩ := key
  exact ⟨w', b, N, e, h1, h2, fun h => h3 (h _ (hS b h2.member))⟩

open Witness in
/-- Server 1 was elected, has stored a command of a client that no other server has, and is down; servers 2 and 3 are up. -/
example : ∃ C : Cluster, C.Ok ∧ ∃ w, C.Reach w ∧ C.Majority [2, 3] ∧
    (∀ i ∈ [2, 3], (C.params i).prevote = false ∧ 0 < (C.params i).maxAppend ∧ 0 ≤ (C.params i).electionUpper) ∧
    (w.node 1).up = none ∧ (w.node 1).disk.log.ents.length = 2 ∧
    (∀ i ∈ [2, 3], ∃ s, (w.node i).up = some s ∧ s.smCommit < s.log.next ∧ s.log.next + 2 ≤ 2 ^ 64) ∧
    2 ≤ C.ids.length ∧ ∃ v ∈ [2, 3], ∃ s, (w.node v).up = some s ∧ s.role ≠ .leader := by
  obtain ⟨w, h, hp⟩ := World.witness (C := trio) (opening 1 ++ older.take 1)
    (fun w => (w.node 1).up.isNone && decide ((w.node 1).disk.log.ents.length = 2) && match (w.node 2).up, (w.node 3).up with
      | some s, some t => decide (s.smCommit < s.log.next) && decide (s.log.next + 2 ≤ 2 ^ 64) && decide (t.smCommit < t.log.next) &&
          decide (t.log.next + 2 ≤ 2 ^ 64) && decide (s.role ≠ .leader)
      | _, _ => false) (by decide +kernel)
  simp only [Bool.and_eq_true, Option.isNone_iff_eq_none, decide_eq_true_eq] at hp
  obtain ⟨⟨g1, g2⟩, hp⟩ := hp
  split at hp
  · rename_i s t h1 h2
    simp only [Bool.and_eq_true, decide_eq_true_eq] at hp
    obtain ⟨⟨⟨⟨k1, k2⟩, k3⟩, k4⟩, k5⟩ := hp
    refine ⟨trio, trio_ok, w, h, ⟨by decide, by decide, by decide⟩, by decide, g1, g2, fun i hi => ?_, by decide, 2, by decide, s, h1, k5⟩
    rcases List.mem_cons.1 hi with rfl | hi
    · exact ⟨s, h1, k1, k2⟩
    · rw [List.mem_singleton.1 hi]; exact ⟨t, h2, k3, k4⟩
  · cases hp

/-! ## From any state -/

theorem restart_one {i : Int} (hi : i ∈ C.ids) : ∃ w', C.Run w w' ∧ w'.evs = w.evs ∧
    w'.node i = ⟨(w.node i).disk, some (boot i (C.params i) (C.env i) (w.node i).disk)⟩ ∧ ∀ k, k ≠ i → w'.node k = w.node k := by
  have key : ∀ w : World, (w.node i).up = none → ∃ w', C.Run w w' ∧ w'.evs = w.evs ∧
      w'.node i = ⟨(w.node i).disk, some (boot i (C.params i) (C.env i) (w.node i).disk)⟩ ∧ ∀ k, k ≠ i → w'.node k = w.node k := by
    intro w h
    have hn : w.node i = ⟨(w.node i).disk, none⟩ := by rw [← h]
    have st := Node.Step.boot (c := C.setup i) (d := (w.node i).disk)
    rw [← hn] at st
    exact ⟨_, .step .refl (.mk hi (fun y hy => by cases hy) st), List.append_nil _, if_pos rfl, fun k hk => if_neg hk⟩
  cases hu : (w.node i).up with
  | none => exact key w hu
  | some s =>
    have hn : w.node i = ⟨(w.node i).disk, some s⟩ := by rw [← hu]
    have st := Node.Step.crash (c := C.setup i) (d := (w.node i).disk) (s := s) (x := .tick 0) (es := []) (List.nil_prefix ..)
    rw [← hn] at st
    obtain ⟨w2, a1, a2, a3, a4⟩ := key ⟨fun k => if k = i then ⟨(w.node i).disk, none⟩ else w.node k, w.evs ++ ([] : List Eff).map fun e => ⟨i, some (.tick 0), e⟩⟩
      (by show (if i = i then _ else _ : Node).up = none; rw [if_pos rfl])
    have e1 : (if i = i then ⟨(w.node i).disk, none⟩ else w.node i : Node) = ⟨(w.node i).disk, none⟩ := if_pos rfl
    refine ⟨w2, Cluster.Run.trans (.step .refl (.mk hi (fun y hy => by cases hy; exact .tick) st)) a1, a2.trans (List.append_nil _), ?_, fun k hk => ?_⟩
    · rw [a3]
      show (⟨(if i = i then _ else w.node i : Node).disk, some (boot _ _ _ (if i = i then _ else w.node i : Node).disk)⟩ : Node) = _
      rw [e1]
    · rw [a4 k hk]; exact if_neg hk

theorem restart_all : ∀ (is : List Int), is.Nodup → (∀ i ∈ is, i ∈ C.ids) → ∀ w, ∃ w', C.Run w w' ∧ w'.evs = w.evs ∧
    (∀ i ∈ is, w'.node i = ⟨(w.node i).disk, some (boot i (C.params i) (C.env i) (w.node i).disk)⟩) ∧ ∀ k, k ∉ is → w'.node k = w.node k
  | [], _, _, w => ⟨w, .refl, rfl, fun _ h => (by cases h), fun _ _ => rfl⟩
  | i :: is, hn, hi, w => by
    obtain ⟨hn1, hn2⟩ := List.nodup_cons.1 hn
    obtain ⟨w1, a1, a2, a3, a4⟩ := restart_one (w := w) (hi i (List.mem_cons_self ..))
    obtain ⟨w2, b1, b2, b3, b4⟩ := restart_all is hn2 (fun k hk => hi k (List.mem_cons_of_mem _ hk)) w1
    refine ⟨w2, a1.trans b1, b2.trans a2, fun k hk => ?_, fun k hk => ?_⟩
    · rcases List.mem_cons.1 hk with rfl | hk
      · rw [b4 k hn1, a3]
      · have hki : k ≠ i := fun hc => hn1 (by rw [← hc]; exact hk)
        rw [b3 k hk, a4 k hki]
    · rw [b4 k fun hc => hk (List.mem_cons_of_mem _ hc), a4 k fun hc => hk (by rw [hc]; exact List.mem_cons_self ..)]

/-- C101: so no execution gets a cluster into a state from which it cannot recover: from every state it gets to, with whatever servers
up or down, a majority can be restarted and then works as above. Partial as above. -/
theorem recovery_possible_partial (hC : C.Ok) (hw : C.Reach w) (hM : C.Majority M)
    (hset : ∀ i ∈ M, (C.params i).prevote = false ∧ 0 < (C.params i).maxAppend ∧ 0 ≤ (C.params i).electionUpper)
    (hdisk : ∀ i ∈ M, (w.node i).disk.log.next + 2 ≤ 2 ^ 64) (d : Nat) :
    ∃ w' b N e, C.Run w w' ∧ Cluster.Done M d w w' b N e ∧ ((w.node b).disk.applied < (w.node b).disk.log.next → w.Applied w' b N e) := by
  obtain ⟨w1, a1, a2, a3, _⟩ := restart_all (C := C) M hM.1 hM.2.1 w
  obtain ⟨w2, b, N, e, b1, b2, b3⟩ := majority_progress_partial hC (Cluster.Run.trans hw a1) hM hset
    (fun i hi => ⟨_, by rw [a3 i hi], hdisk i hi⟩) (by
    obtain ⟨v, hv⟩ := List.exists_mem_of_ne_nil M fun hc => by have := hM.2.2; rw [hc, List.length_nil] at this; omega
    exact fun _ => ⟨v, hv, _, by rw [a3 v hv], fun h => (by cases h)⟩) d
  refine ⟨w2, b, N, e, a1.trans (b1.run hM.2.1), ⟨b2.member, b2.data, b2.leads, ?_, b2.stored, b2.committed⟩, fun h => ?_⟩
  · have := b2.accepted
    rwa [a2] at this
  · have := b3 fun s hs => by
      rw [a3 b b2.member] at hs
      cases hs
      exact h
    unfold World.Applied at this
    rwa [a2] at this

open Witness in
/-- Servers 1 and 2 have crashed with different commands at the same index, and server 3 is down. -/
example : ∃ C : Cluster, C.Ok ∧ ∃ w, C.Reach w ∧ C.Majority [1, 2] ∧
    (∀ i ∈ [1, 2], (C.params i).prevote = false ∧ 0 < (C.params i).maxAppend ∧ 0 ≤ (C.params i).electionUpper) ∧
    (∀ i ∈ C.ids, (w.node i).up = none) ∧ (w.node 1).disk.log.ents ≠ (w.node 2).disk.log.ents ∧
    ∀ i ∈ [1, 2], (w.node i).disk.applied < (w.node i).disk.log.next ∧ (w.node i).disk.log.next + 2 ≤ 2 ^ 64 := by
  obtain ⟨w, h, hp⟩ := World.witness (C := trio) (opening 1 ++ older.take 5 ++ [.kill 3])
    (fun w => (trio.ids.all fun i => (w.node i).up.isNone) && decide ((w.node 1).disk.log.ents ≠ (w.node 2).disk.log.ents) &&
      [1, 2].all fun i => decide ((w.node i).disk.applied < (w.node i).disk.log.next) && decide ((w.node i).disk.log.next + 2 ≤ 2 ^ 64))
    (by decide +kernel)
  simp only [Bool.and_eq_true, List.all_eq_true, Option.isNone_iff_eq_none, decide_eq_true_eq] at hp
  obtain ⟨⟨g1, g2⟩, g3⟩ := hp
  exact ⟨trio, trio_ok, w, h, ⟨by decide, by decide, by decide⟩, by decide, g1, g2, g3⟩

end Cs.Raft
