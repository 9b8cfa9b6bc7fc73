import Verif.Cluster.CutCommit
import Verif.Cluster.CutPlay
import Verif.Cluster.CutTold

/-!
# Clusters that compact their logs (C91)

The executions are those of `Verif/Cluster/CutSpec.lean`: as in `Verif/Cluster/Spec.lean`, and servers take snapshots and
compact their logs, but keep at least one of the entries a snapshot covers, and need no snapshots of other servers. The
guarantees of clusters without snapshots hold for the entries that are still in the logs.
-/

namespace Cs.Raft
open Cs Witness

variable {C : Cluster} {w w' : World}

/-! ## One leader per term -/

/-- C91 (C40), partial. Append requests of the same term come from the same server. Missing: servers that get snapshots of
others. -/
theorem one_sender_per_term_compacted_partial (hC : C.OkS) (hr : C.SReach w) {a b : Ev} {m m' : Req} (ha : a ∈ w.evs)
    (hb : b ∈ w.evs) (ea : a.eff = .send m) (eb : b.eff = .send m') (hm : m.type = .appendReq) (hm' : m'.type = .appendReq)
    (ht : m.term = m'.term) : a.node = b.node := by
  obtain ⟨ps, g, h⟩ := Cut.reach_inv hC hr
  have h1 := h.safe.logs.votes.replicated (Cut.mem_hist.2 ⟨Cut.kept_send (by rw [hm]; decide), a, ha, rfl, ea⟩) hm
  have h2 := h.safe.logs.votes.replicated (Cut.mem_hist.2 ⟨Cut.kept_send (by rw [hm']; decide), b, hb, rfl, eb⟩) hm'
  rw [← ht] at h2
  exact h.safe.logs.votes.one_leader hC.named h1 h2

/-- Server 1 has sent append requests in term 1 and server 2 in term 3. Both have compacted their logs. -/
example : ∃ C : Cluster, C.OkS ∧ ∃ w, C.SReach w ∧ (w.log 1).start = 2 ∧ (w.log 2).start = 2 ∧
    (∃ a ∈ w.evs, a.node = 1 ∧ ∃ m, a.eff = .send m ∧ m.type = .appendReq ∧ m.term = 1) ∧
    ∃ b ∈ w.evs, b.node = 2 ∧ ∃ m, b.eff = .send m ∧ m.type = .appendReq ∧ m.term = 3 := by
  obtain ⟨w, h, hp⟩ := World.switness (C := trioK) (shrinkBegins ++ shrinkEnds)
    (fun w => decide ((w.log 1).start = 2 ∧ (w.log 2).start = 2) && (sentB w.evs 1 1 && sentB w.evs 2 3)) (by decide +kernel)
  rw [Bool.and_eq_true, Bool.and_eq_true] at hp
  have hd := of_decide_eq_true hp.1
  exact ⟨trioK, trioK_ok, w, h, hd.1, hd.2, sentB_sound hp.2.1, sentB_sound hp.2.2⟩

/-! ## Log matching -/

/-- C91 (C41), partial. If the logs of two servers have entries of the same term at the same index, they have the same entries
up to this index, from where both logs begin. Missing: servers that get snapshots of others. -/
theorem log_matching_compacted_partial (hC : C.OkS) (hr : C.SReach w) {i j : Int} (hi : i ∈ C.ids) (hj : j ∈ C.ids) {k : Nat}
    {a b : Entry} (ha : (w.log i).get? k = some a) (hb : (w.log j).get? k = some b) (ht : a.term = b.term) :
    ∀ l, l ≤ k → (w.log i).start ≤ l → (w.log j).start ≤ l → (w.log i).get? l = (w.log j).get? l := by
  obtain ⟨ps, g, h⟩ := Cut.reach_inv hC hr
  obtain ⟨k0, ha⟩ := h.get_some hi ha
  obtain ⟨_, hb⟩ := h.get_some hj hb
  have := Lin.match (h.safe.logs.srv i).lin (h.safe.logs.srv j).lin ha hb ht
  intro l hl h1 h2
  obtain ⟨l0, h1⟩ := h.get hi h1
  obtain ⟨_, h2⟩ := h.get hj h2
  rw [h1, h2]
  have h3 : ((ps i).log.take (k - 1 + 1))[l - 1]? = (ps i).log[l - 1]? := by rw [List.getElem?_take, if_pos (by omega)]
  rw [← h3, this, List.getElem?_take, if_pos (by omega)]

/-- Servers 1 and 2 have compacted their logs and have the same entries 2 and 3. -/
example : ∃ C : Cluster, C.OkS ∧ ∃ w, C.SReach w ∧ (w.log 1).start = 2 ∧ (w.log 2).start = 2 ∧
    (w.log 1).get? 2 = some ⟨1, .app 7⟩ ∧ (w.log 2).get? 2 = some ⟨1, .app 7⟩ ∧
    (w.log 1).get? 3 = some ⟨1, .app 8⟩ ∧ (w.log 2).get? 3 = some ⟨1, .app 8⟩ := by
  obtain ⟨w, h, hp⟩ := World.switness (C := trioK) shrinkBegins
    (fun w => decide ((w.log 1).start = 2 ∧ (w.log 2).start = 2 ∧ (w.log 1).get? 2 = some ⟨1, .app 7⟩ ∧
      (w.log 2).get? 2 = some ⟨1, .app 7⟩ ∧ (w.log 1).get? 3 = some ⟨1, .app 8⟩ ∧ (w.log 2).get? 3 = some ⟨1, .app 8⟩))
    (by decide +kernel)
  exact ⟨trioK, trioK_ok, w, h, of_decide_eq_true hp⟩

/-! ## Leaders only append -/

/-- C91 (C42), partial. From the time a server is leader of term `t` until its disk has another term, entries leave its log
only by compaction. Missing: servers that get snapshots of others. -/
theorem leader_append_only_compacted_partial (hC : C.OkS) (hr : C.SReach w) (hr' : C.SRun w w') {i : Int} {t : Nat}
    (hi : i ∈ C.ids) (h1 : w.Leads i t) (h2 : (w'.node i).disk.term = t) {k : Nat} {e : Entry}
    (he : (w.log i).get? k = some e) : (w'.log i).get? k = some e ∨ k < (w'.log i).start := by
  obtain ⟨ps, g, h⟩ := Cut.reach_inv hC hr
  have key : ∃ ps' g', Ghost.Le (Cut.hist w) g g' ∧ (∀ x ∈ Cut.hist w, x ∈ Cut.hist w') ∧ Cut.Inv C w' ps' g' ∧
      t ≤ (ps' i).term ∧ ((ps' i).term = t → (ps i).log <+: (ps' i).log) := by
    clear h2
    induction hr' with
    | refl => exact ⟨ps, g, Ghost.Le.refl _ _, fun _ h => h, h, Nat.le_of_eq (h.leads hi h1).2.1.symm,
        fun _ => List.prefix_refl _⟩
    | @step w1 w2 _ st ih =>
      obtain ⟨p1, g1, l1, s1, i1, t1, f1⟩ := ih
      obtain ⟨k, x, es, c1, c', pre, hk, he, hh, p, hc, hl, _⟩ := i1.linked.step hC i1.safe.logs.votes st
      obtain ⟨g2, hle, hs⟩ := p.safe hC.named hk (fun _ h => h) rfl i1.safe
      have hl2 : ∀ y ∈ Cut.hist w1, y ∈ Cut.hist w2 := fun y hy => by rw [hh]; exact List.mem_append.2 (.inl hy)
      refine ⟨upd p1 k c', g2, l1.trans s1 hle, fun y hy => hl2 y (s1 y hy), ⟨hl, ?_⟩, ?_⟩
      · rw [hh]
        rcases hc with rfl | ⟨q, hq, rfl⟩
        · exact hs
        · have := hs.quiet (i := k) (c := { c1 with role := .follower, counting := false, qc := q })
            (by rw [upd_self]; exact .crash hq)
          rw [upd_upd] at this
          exact this
      · by_cases hki : i = k
        · subst hki
          rw [upd_self]
          have e1 : c'.term = c1.term := by rcases hc with rfl | ⟨q, hq, rfl⟩ <;> rfl
          have e2 : c'.log = c1.log := by rcases hc with rfl | ⟨q, hq, rfl⟩ <;> rfl
          have hle := p.term_le
          rw [e1, e2]
          refine ⟨by omega, fun ht => ?_⟩
          have ht1 : (p1 i).term = t := by omega
          exact (f1 ht1).trans (p.own_log hC.named i1.safe.logs.votes
            (by rw [ht1]; exact s1 _ (h.leads hi h1).2.2.1) (by omega))
        · rw [upd_ne hki]; exact ⟨t1, f1⟩
  obtain ⟨ps', g', _, _, h', _, hp⟩ := key
  have ht : (ps' i).term = t := by
    obtain ⟨pre, hn⟩ := h'.linked.nodes i hi
    rw [← hn.disk.term]; exact h2
  obtain ⟨_, he⟩ := h.get_some hi he
  rcases Nat.lt_or_ge k (w'.log i).start with hk | hk
  · exact .inr hk
  · left
    rw [(h'.get hi hk).2]
    exact get_of_prefix (hp ht) he

/-- Server 1 is leader of term 1 and has two entries; later it has compacted the first and appended a third. -/
example : ∃ C : Cluster, C.OkS ∧ ∃ w w', C.SReach w ∧ C.SRun w w' ∧ w.Leads 1 1 ∧ (w'.node 1).disk.term = 1 ∧
    (w.log 1).start = 1 ∧ (w.log 1).next = 3 ∧ (w'.log 1).start = 2 ∧ (w'.log 1).next = 4 := by
  obtain ⟨w, w', h, h', hp⟩ := World.switness2 (C := trioK) (shrinkBegins.take 22) (shrinkBegins.drop 22)
    (fun w w' => w.leadsB 1 1 && decide ((w'.node 1).disk.term = 1 ∧ (w.log 1).start = 1 ∧ (w.log 1).next = 3 ∧
      (w'.log 1).start = 2 ∧ (w'.log 1).next = 4)) (by decide +kernel)
  rw [Bool.and_eq_true] at hp
  exact ⟨trioK, trioK_ok, w, w', h, h', World.leadsB_iff.1 hp.1, of_decide_eq_true hp.2⟩

/-! ## What a majority stored stays -/

/-- C91 (C43), partial. Server `i` is leader of term `t` and its entry `n` is of this term. Each server of a majority, `i`
possibly among them, has confirmed in term `t` that it has the entries up to `n`. Then whoever is leader of a later term, at
whatever later time, has entries up to `n`; those of them which both logs still have are the same, and those it has compacted
are covered by its snapshot. Missing: servers that get snapshots of others, and servers that keep no entry behind a snapshot;
for the latter it is false, see `snapshot_loses_committed_entry`. -/
theorem leader_completeness_compacted_partial (hC : C.OkS) (hr : C.SReach w) (hr' : C.SRun w w') {i j : Int} {t u n : Nat}
    (hi : i ∈ C.ids) (hj : j ∈ C.ids) (hl : w.Leads i t) {e : Entry} (he : (w.log i).get? n = some e) (het : e.term = t)
    {V : List Int} (hV : C.Majority V) (hc : ∀ v ∈ V, v = i ∨ Confirmed w.evs v t n) (hl' : w'.Leads j u) (htu : t < u) :
    n < (w'.log j).next ∧
    (∀ k, k ≤ n → (w.log i).start ≤ k → (w'.log j).start ≤ k → (w'.log j).get? k = (w.log i).get? k) ∧
    ∀ k, 0 < k → k < (w'.log j).start → ∃ q, (w'.node j).disk.snap = some q ∧ k < q.lastIdx := by
  obtain ⟨ps, g, h⟩ := Cut.reach_inv hC hr
  obtain ⟨ps', g', hle, hs, h'⟩ := h.run hC hr'
  obtain ⟨a1, a2, a3, a4⟩ := h.leads hi hl
  obtain ⟨b1, b2, b3, b4⟩ := h'.leads hj hl'
  obtain ⟨n0, hx⟩ := h.get_some hi he
  rw [a4] at hx
  have hxl := getElem?_lt hx
  have hcm : Committed C.ids (Cut.hist w) g t n := by
    refine ⟨⟨by omega, ?_⟩, V, hV, fun v hv => ?_⟩
    · rw [hx, ← het]; rfl
    · rcases hc v hv with rfl | hcf
      · exact .inr ⟨a3, by omega⟩
      · exact .inl (Cut.confirmed_hist hcf)
  have hlen := hcm.1.length
  have hp := h'.safe.has (hcm.mono hs hle.llog) (Nat.le_of_lt htu) ⟨j, b3⟩
  rw [← take_of_prefix (hle.llog t) hlen] at hp
  refine ⟨?_, fun k hk h1 h2 => ?_, fun k k0 hk => ?_⟩
  · have := hp.length_le
    rw [List.length_take, ← b4] at this
    rw [h'.next hj]
    omega
  · obtain ⟨k0, h1⟩ := h.get hi h1
    obtain ⟨_, h2⟩ := h'.get hj h2
    rw [h1, h2, a4, b4]
    exact get_take_prefix hp hlen (by omega)
  · rcases h'.snap hj with hst | ⟨q, q1, q2⟩
    · omega
    · exact ⟨q, q1, by omega⟩

/-- Server 2 confirms entry 3 of server 1, the leader of term 1; later server 2 is leader of term 3. Both have compacted their
logs. Server 3 has asked server 2 for its vote and was refused. -/
example : ∃ C : Cluster, C.OkS ∧ ∃ w w', C.SReach w ∧ C.SRun w w' ∧ w.Leads 1 1 ∧
    ((w.log 1).get? 3).map Entry.term = some 1 ∧ C.Majority [1, 2] ∧ Confirmed w.evs 2 1 3 ∧ w'.Leads 2 3 ∧
    (w.log 1).start = 2 ∧ (w'.log 2).start = 2 := by
  obtain ⟨w, w', h, h', hp⟩ := World.switness2 (C := trioK) shrinkBegins shrinkEnds
    (fun w w' => w.leadsB 1 1 && (decide (((w.log 1).get? 3).map Entry.term = some 1) && (confirmedB w.evs 2 1 3 &&
      (w'.leadsB 2 3 && decide ((w.log 1).start = 2 ∧ (w'.log 2).start = 2))))) (by decide +kernel)
  rw [Bool.and_eq_true, Bool.and_eq_true, Bool.and_eq_true, Bool.and_eq_true] at hp
  exact ⟨trioK, trioK_ok, w, w', h, h', World.leadsB_iff.1 hp.1, of_decide_eq_true hp.2.1,
    ⟨by decide, by decide, by decide⟩, confirmedB_sound hp.2.2.1, World.leadsB_iff.1 hp.2.2.2.1,
    of_decide_eq_true hp.2.2.2.2⟩

/-! ## State machine safety -/

/-- C91 (C44), partial. Entries of the same term that are handed to state machines at the same index are the same. Missing:
servers that get snapshots of others. -/
theorem applied_same_term_compacted_partial (hC : C.OkS) (hr : C.SReach w) {a b : Ev} {k : Nat} {x y : Entry} (ha : a ∈ w.evs)
    (hb : b ∈ w.evs) (ea : a.eff = .commit k x) (eb : b.eff = .commit k y) (ht : x.term = y.term) : x = y := by
  obtain ⟨ps, g, h⟩ := Cut.reach_inv hC hr
  have h1 := (h.safe.applied (Cut.mem_hist.2 ⟨rfl, a, ha, rfl, ea⟩)).2
  have h2 := (h.safe.applied (Cut.mem_hist.2 ⟨rfl, b, hb, rfl, eb⟩)).2
  rw [← ht, h1] at h2
  exact Option.some.inj h2

/-- C91 (C44), partial. Entries handed to the state machines at the same index are the same, if leaders raised their commit
index only with a majority behind an entry of their own term, and followers only up to the entries of the request. Missing: as
for `state_machine_safety_partial`, and servers that get snapshots of others or keep no entry behind a snapshot. -/
theorem state_machine_safety_compacted_partial (hC : C.OkS) (hr : C.SReach w) (hl : C.CarefulLeaders w.evs)
    (hf : CarefulFollowers w.evs) {a b : Ev} {k : Nat} {x y : Entry} (ha : a ∈ w.evs) (hb : b ∈ w.evs)
    (ea : a.eff = .commit k x) (eb : b.eff = .commit k y) : x = y := by
  obtain ⟨ps, g, h, hk⟩ := Cut.comm_reach hC hr ⟨hl, hf⟩
  exact CommOk.agree h.safe hk (Cut.mem_hist.2 ⟨rfl, a, ha, rfl, ea⟩) (Cut.mem_hist.2 ⟨rfl, b, hb, rfl, eb⟩)

/-- Servers 1 and 2 have applied command 7 at index 2 and compacted their logs, and everybody was careful. -/
example : ∃ C : Cluster, C.OkS ∧ ∃ w, C.SReach w ∧ C.CarefulLeaders w.evs ∧ CarefulFollowers w.evs ∧
    (∃ a ∈ w.evs, a.node = 1 ∧ a.eff = .commit 2 ⟨1, .app 7⟩) ∧ (∃ b ∈ w.evs, b.node = 2 ∧ b.eff = .commit 2 ⟨1, .app 7⟩) ∧
    (w.log 1).start = 2 ∧ (w.log 2).start = 2 := by
  obtain ⟨w, h, hp⟩ := World.switness (C := trioK) (shrinkBegins ++ shrinkEnds)
    (fun w => trio.carefulLeadersB w.evs && (carefulFollowersB w.evs && (w.did 1 (.commit 2 ⟨1, .app 7⟩) &&
      (w.did 2 (.commit 2 ⟨1, .app 7⟩) && decide ((w.log 1).start = 2 ∧ (w.log 2).start = 2))))) (by decide +kernel)
  rw [Bool.and_eq_true, Bool.and_eq_true, Bool.and_eq_true, Bool.and_eq_true] at hp
  exact ⟨trioK, trioK_ok, w, h, Cluster.carefulLeadersB_sound trio_ok hp.1, carefulFollowersB_sound hp.2.1,
    World.did_mem hp.2.2.1, World.did_mem hp.2.2.2.1, of_decide_eq_true hp.2.2.2.2⟩

/-- C91, partial. If leaders and followers are careful, it is enough that servers wait for the snapshots they are told about: the
entry a snapshot ends with is then in the log when the snapshot is finished, and all theorems of this file hold. Missing: as
before. -/
theorem waiting_suffices_partial (hC : C.OkS) (hr : C.TReach w) (hl : C.CarefulLeaders w.evs) (hf : CarefulFollowers w.evs) :
    C.SReach w := (Cut.TReach.sreach hC hr ⟨hl, hf⟩).1

/-- C91 (C44), partial. The same for executions in which servers wait for the snapshots they are told about; nothing is
required of their logs. -/
theorem state_machine_safety_waiting_partial (hC : C.OkS) (hr : C.TReach w) (hl : C.CarefulLeaders w.evs)
    (hf : CarefulFollowers w.evs) {a b : Ev} {k : Nat} {x y : Entry} (ha : a ∈ w.evs) (hb : b ∈ w.evs)
    (ea : a.eff = .commit k x) (eb : b.eff = .commit k y) : x = y :=
  state_machine_safety_compacted_partial hC (waiting_suffices_partial hC hr hl hf) hl hf ha hb ea eb

/-- Servers 1 and 2 have applied command 7 at index 2 and compacted their logs, and everybody was careful. -/
example : ∃ C : Cluster, C.OkS ∧ ∃ w, C.TReach w ∧ C.CarefulLeaders w.evs ∧ CarefulFollowers w.evs ∧
    (∃ a ∈ w.evs, a.node = 1 ∧ a.eff = .commit 2 ⟨1, .app 7⟩) ∧ (∃ b ∈ w.evs, b.node = 2 ∧ b.eff = .commit 2 ⟨1, .app 7⟩) ∧
    (w.log 1).start = 2 ∧ (w.log 2).start = 2 := by
  obtain ⟨w, h, hp⟩ := World.twitness (C := trioK) (shrinkBegins ++ shrinkEnds)
    (fun w => trio.carefulLeadersB w.evs && (carefulFollowersB w.evs && (w.did 1 (.commit 2 ⟨1, .app 7⟩) &&
      (w.did 2 (.commit 2 ⟨1, .app 7⟩) && decide ((w.log 1).start = 2 ∧ (w.log 2).start = 2))))) (by decide +kernel)
  rw [Bool.and_eq_true, Bool.and_eq_true, Bool.and_eq_true, Bool.and_eq_true] at hp
  exact ⟨trioK, trioK_ok, w, h, Cluster.carefulLeadersB_sound trio_ok hp.1, carefulFollowersB_sound hp.2.1,
    World.did_mem hp.2.2.1, World.did_mem hp.2.2.2.1, of_decide_eq_true hp.2.2.2.2⟩

/-- C91 (C44), partial. Entries handed to the state machines at the same index are the same, in all executions where positive
answers reach only the leader of their own term, elected servers have no old records of what the others have, leaders commit
entries of their own terms, followers take over a commit index only up to the entries of the request, and servers wait for the
snapshots they are told about. That every commit is backed by a majority, and that the entry a snapshot ends with is in the log,
is proved here, not assumed. Missing: the code ensures none of the first four, and servers that get snapshots of others or keep no
entry behind a snapshot. -/
theorem state_machine_safety_timely_compacted_partial (hC : C.OkS) (hr : C.TOnly (fun _ s x es => Timely s x ∧ Fresh s es) w)
    (ho : C.OwnEntries w.evs) (hf : CarefulFollowers w.evs) {a b : Ev} {k : Nat} {x y : Entry} (ha : a ∈ w.evs)
    (hb : b ∈ w.evs) (ea : a.eff = .commit k x) (eb : b.eff = .commit k y) : x = y :=
  state_machine_safety_waiting_partial hC (Cut.TOnly.treach hr) (Cut.TOnly.careful hC hr ho hf).2 hf ha hb ea eb

/-- Servers 1 and 2 have applied command 7 at index 2 and compacted their logs; server 2 is leader of term 3. All conditions were
met. -/
example : ∃ C : Cluster, C.OkS ∧ ∃ w, C.TOnly (fun _ s x es => Timely s x ∧ Fresh s es) w ∧ C.OwnEntries w.evs ∧
    CarefulFollowers w.evs ∧ (∃ a ∈ w.evs, a.node = 1 ∧ a.eff = .commit 2 ⟨1, .app 7⟩) ∧
    (∃ b ∈ w.evs, b.node = 2 ∧ b.eff = .commit 2 ⟨1, .app 7⟩) ∧ w.Leads 2 3 ∧ (w.log 1).start = 2 ∧ (w.log 2).start = 2 := by
  obtain ⟨w, h, hp⟩ := World.tonly (C := trioK) (fun _ => heedfulB) (fun _ _ _ _ => heedfulB_sound) (shrinkBegins ++ shrinkEnds)
    (fun w => trio.ownEntriesB w.evs && (carefulFollowersB w.evs && (w.did 1 (.commit 2 ⟨1, .app 7⟩) &&
      (w.did 2 (.commit 2 ⟨1, .app 7⟩) && (w.leadsB 2 3 && decide ((w.log 1).start = 2 ∧ (w.log 2).start = 2))))))
    (by decide +kernel)
  rw [Bool.and_eq_true, Bool.and_eq_true, Bool.and_eq_true, Bool.and_eq_true, Bool.and_eq_true] at hp
  exact ⟨trioK, trioK_ok, w, h, Cluster.ownEntriesB_sound hp.1, carefulFollowersB_sound hp.2.1, World.did_mem hp.2.2.1,
    World.did_mem hp.2.2.2.1, World.leadsB_iff.1 hp.2.2.2.2.1, of_decide_eq_true hp.2.2.2.2.2⟩

/-! ## Logs do not become empty -/

/-- C91, partial. A log that has been compacted is not empty; so the last entry of a voter is that of its log, and what is not
in the log is in a snapshot of the server. Missing: servers that get snapshots of others or keep no entry behind a snapshot. -/
theorem log_not_empty_partial (hC : C.OkS) (hr : C.SReach w) {i : Int} (hi : i ∈ C.ids) (hs : (w.log i).start ≠ 1) :
    (w.log i).start < (w.log i).next ∧ ∃ q, (w.node i).disk.snap = some q ∧ (w.log i).start ≤ q.lastIdx := by
  obtain ⟨ps, g, h⟩ := Cut.reach_inv hC hr
  constructor
  · rcases h.full hi with hf | hf
    · exact absurd hf hs
    · have := List.length_pos_iff.2 hf
      show (w.log i).start < (w.log i).start + (w.log i).ents.length
      omega
  · rcases h.snap hi with hf | hf
    · exact absurd hf hs
    · exact hf

/-- Server 2 has compacted its log. -/
example : ∃ C : Cluster, C.OkS ∧ ∃ w, C.SReach w ∧ 2 ∈ C.ids ∧ (w.log 2).start = 2 := by
  obtain ⟨w, h, hp⟩ := World.switness (C := trioK) shrinkBegins (fun w => decide ((w.log 2).start = 2)) (by decide +kernel)
  exact ⟨trioK, trioK_ok, w, h, by decide, of_decide_eq_true hp⟩

end Cs.Raft
