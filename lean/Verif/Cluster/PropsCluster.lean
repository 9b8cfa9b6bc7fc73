import Verif.Cluster.Keep
import Verif.Cluster.Witness
import Verif.Cluster.Told

/-!
# Properties of the whole cluster (C40–C44)

The executions are those of `Verif/Cluster/Spec.lean`: any number of servers with fixed members, a network that loses,
repeats, delays and reorders, crashes at any point, any configuration parameters except that no snapshots are taken.
-/

namespace Cs.Raft
open Cs Witness

variable {C : Cluster} {w w' : World}

/-! ## C40: at most one leader per term -/

/-- C40. Two servers that became leader in the same term are the same server. -/
theorem one_leader_per_term (hC : C.Ok) (hr : C.Reach w) {a b : Ev} {t : Nat} (ha : a ∈ w.evs) (hb : b ∈ w.evs)
    (ea : a.eff = .lead t) (eb : b.eff = .lead t) : a.node = b.node := by
  obtain ⟨ps, g, h⟩ := hr.inv hC
  exact h.safe.logs.votes.one_leader hC.named (mem_hist.2 ⟨a, ha, rfl, ea⟩) (mem_hist.2 ⟨b, hb, rfl, eb⟩)

/-- C40, for the states of the servers: if `i` is leader of a term at some time and `j` is at this or a later time, they are
the same server. -/
theorem leaders_of_a_term (hC : C.Ok) (hr : C.Reach w) (hr' : C.Run w w') {i j : Int} {t : Nat} (hi : i ∈ C.ids)
    (hj : j ∈ C.ids) (h1 : w.Leads i t) (h2 : w'.Leads j t) : i = j := by
  obtain ⟨ps, g, h⟩ := hr.inv hC
  obtain ⟨ps', g', _, hs, h'⟩ := h.run hC hr'
  exact h'.safe.logs.votes.one_leader hC.named (hs _ (h.leads hi h1).2.2.1) (h'.leads hj h2).2.2.1

/-- C40, for the messages: append requests of the same term come from the same server. -/
theorem one_sender_per_term (hC : C.Ok) (hr : C.Reach w) {a b : Ev} {m m' : Req} (ha : a ∈ w.evs) (hb : b ∈ w.evs)
    (ea : a.eff = .send m) (eb : b.eff = .send m') (hm : m.type = .appendReq) (hm' : m'.type = .appendReq)
    (ht : m.term = m'.term) : a.node = b.node := by
  obtain ⟨ps, g, h⟩ := hr.inv hC
  have h1 := h.safe.logs.votes.replicated (mem_hist.2 ⟨a, ha, rfl, ea⟩) hm
  have h2 := h.safe.logs.votes.replicated (mem_hist.2 ⟨b, hb, rfl, eb⟩) hm'
  rw [← ht] at h2
  exact h.safe.logs.votes.one_leader hC.named h1 h2

/-- Servers 1 and 2 have been leaders of terms 1 and 2, and server 2 still is. -/
example : ∃ C : Cluster, C.Ok ∧ ∃ w, C.Reach w ∧ w.Leads 2 2 ∧ ∃ a ∈ w.evs, a.node = 1 ∧ a.eff = .lead 1 := by
  obtain ⟨w, h, hp⟩ := World.witness (C := trio) (opening 1 ++ older.take 4)
    (fun w => w.leadsB 2 2 && w.did 1 (.lead 1)) (by decide +kernel)
  rw [Bool.and_eq_true] at hp
  exact ⟨trio, trio_ok, w, h, World.leadsB_iff.1 hp.1, World.did_mem hp.2⟩

/-! ## C41: log matching -/

/-- C41. If the logs of two servers have entries of the same term at the same index, they have the same entries up to this
index. -/
theorem log_matching (hC : C.Ok) (hr : C.Reach w) {i j : Int} (hi : i ∈ C.ids) (hj : j ∈ C.ids) {k : Nat} {a b : Entry}
    (ha : (w.log i).get? k = some a) (hb : (w.log j).get? k = some b) (ht : a.term = b.term) :
    ∀ l, l ≤ k → (w.log i).get? l = (w.log j).get? l := by
  obtain ⟨ps, g, h⟩ := hr.inv hC
  cases k with
  | zero => rw [h.get_zero hi] at ha; cases ha
  | succ k =>
    rw [h.get hi] at ha
    rw [h.get hj] at hb
    have := Lin.match (h.safe.logs.srv i).lin (h.safe.logs.srv j).lin ha hb ht
    intro l hl
    cases l with
    | zero => rw [h.get_zero hi, h.get_zero hj]
    | succ l =>
      rw [h.get hi, h.get hj]
      have h1 : ((ps i).log.take (k + 1))[l]? = (ps i).log[l]? := by rw [List.getElem?_take, if_pos (by omega)]
      rw [← h1, this, List.getElem?_take, if_pos (by omega)]

/-- Servers 2 and 3 have the same entry 2; server 1 has another one, of another term. -/
example : ∃ C : Cluster, C.Ok ∧ ∃ w, C.Reach w ∧ (w.log 2).get? 2 = some ⟨2, .app 8⟩ ∧ (w.log 3).get? 2 = some ⟨2, .app 8⟩ ∧
    (w.log 1).get? 2 = some ⟨1, .app 7⟩ := by
  obtain ⟨w, h, hp⟩ := World.witness (C := trio) (opening 1 ++ older ++ newer)
    (fun w => decide ((w.log 2).get? 2 = some ⟨2, .app 8⟩ ∧ (w.log 3).get? 2 = some ⟨2, .app 8⟩ ∧
      (w.log 1).get? 2 = some ⟨1, .app 7⟩)) (by decide +kernel)
  exact ⟨trio, trio_ok, w, h, of_decide_eq_true hp⟩

/-! ## C42: leaders only append -/

/-- C42. From the time a server is leader of term `t` until its disk has another term, its log only grows: what it had is
still there, whatever the server gets, also if it crashes and is started again. -/
theorem leader_append_only (hC : C.Ok) (hr : C.Reach w) (hr' : C.Run w w') {i : Int} {t : Nat} (hi : i ∈ C.ids)
    (h1 : w.Leads i t) (h2 : (w'.node i).disk.term = t) {k : Nat} {e : Entry} (he : (w.log i).get? k = some e) :
    (w'.log i).get? k = some e := by
  obtain ⟨ps, g, h⟩ := hr.inv hC
  have key : ∃ ps' g', Ghost.Le w.hist g g' ∧ (∀ x ∈ w.hist, x ∈ w'.hist) ∧ Inv C w' ps' g' ∧ t ≤ (ps' i).term ∧
      ((ps' i).term = t → (ps i).log <+: (ps' i).log) := by
    clear h2
    induction hr' with
    | refl => exact ⟨ps, g, Ghost.Le.refl _ _, fun _ h => h, h, Nat.le_of_eq (h.leads hi h1).2.1.symm,
        fun _ => List.prefix_refl _⟩
    | @step w1 w2 _ st ih =>
      obtain ⟨p1, g1, l1, s1, i1, t1, f1⟩ := ih
      obtain ⟨k, x, es, c1, c', hk, he, hh, p, hc, hl, _⟩ := i1.linked.step hC i1.safe.logs.votes st
      obtain ⟨g2, hle, hs⟩ := p.safe hC.named hk (fun _ h => h) rfl i1.safe
      have hl2 : ∀ y ∈ w1.hist, y ∈ w2.hist := fun y hy => by rw [hh]; exact List.mem_append.2 (.inl hy)
      refine ⟨upd p1 k c', g2, l1.trans s1 hle, fun y hy => hl2 y (s1 y hy), ⟨hl, ?_⟩, ?_⟩
      · rw [hh]
        rcases hc with rfl | ⟨q, hq, rfl⟩
        · exact hs
        · have := hs.quiet (i := k) (c := { c1 with role := .follower, counting := false, qc := q })
            (by rw [upd_self]; exact .crash hq)
          rw [upd_upd] at this
          exact this
      · by_cases hki : i = k
        · subst hki
          rw [upd_self]
          have e1 : c'.term = c1.term := by rcases hc with rfl | ⟨q, hq, rfl⟩ <;> rfl
          have e2 : c'.log = c1.log := by rcases hc with rfl | ⟨q, hq, rfl⟩ <;> rfl
          have hle := p.term_le
          rw [e1, e2]
          refine ⟨by omega, fun ht => ?_⟩
          have ht1 : (p1 i).term = t := by omega
          exact (f1 ht1).trans (p.own_log hC.named i1.safe.logs.votes
            (by rw [ht1]; exact s1 _ (h.leads hi h1).2.2.1) (by omega))
        · rw [upd_ne hki]; exact ⟨t1, f1⟩
  obtain ⟨ps', g', _, _, h', _, hp⟩ := key
  have ht : (ps' i).term = t := by rw [← (h'.linked.nodes i hi).disk.term]; exact h2
  cases k with
  | zero => rw [h.get_zero hi] at he; cases he
  | succ k =>
    rw [h.get hi] at he
    rw [h'.get hi]
    exact get_of_prefix (hp ht) he

/-- Server 1 is leader of term 1 with one entry; later it has two, is down, and its term is still 1. -/
example : ∃ C : Cluster, C.Ok ∧ ∃ w w', C.Reach w ∧ C.Run w w' ∧ w.Leads 1 1 ∧ (w'.node 1).disk.term = 1 ∧
    (w'.node 1).up.isNone ∧ (w.log 1).next = 2 ∧ (w'.log 1).next = 3 := by
  obtain ⟨w, w', h, h', hp⟩ := World.witness2 (C := trio) (opening 1) [.clientKill 1 7 1]
    (fun w w' => w.leadsB 1 1 && decide ((w'.node 1).disk.term = 1 ∧ (w'.node 1).up.isNone ∧ (w.log 1).next = 2 ∧
      (w'.log 1).next = 3)) (by decide +kernel)
  rw [Bool.and_eq_true] at hp
  exact ⟨trio, trio_ok, w, w', h, h', World.leadsB_iff.1 hp.1, of_decide_eq_true hp.2⟩

/-! ## C43: what a majority stored stays -/

/-- C43. Server `i` is leader of term `t` and its entry `n` is of this term. Each server of a majority, `i` possibly among
them, has confirmed in term `t` that it has the entries up to `n`. Then whoever is leader of a later term, at whatever later
time, has the same entries up to `n`. -/
theorem leader_completeness (hC : C.Ok) (hr : C.Reach w) (hr' : C.Run w w') {i j : Int} {t u n : Nat} (hi : i ∈ C.ids)
    (hj : j ∈ C.ids) (hl : w.Leads i t) {e : Entry} (he : (w.log i).get? n = some e) (het : e.term = t) {V : List Int}
    (hV : C.Majority V) (hc : ∀ v ∈ V, v = i ∨ Confirmed w.evs v t n) (hl' : w'.Leads j u) (htu : t < u) :
    ∀ k, k ≤ n → (w'.log j).get? k = (w.log i).get? k := by
  obtain ⟨ps, g, h⟩ := hr.inv hC
  obtain ⟨ps', g', hle, hs, h'⟩ := h.run hC hr'
  obtain ⟨a1, a2, a3, a4⟩ := h.leads hi hl
  obtain ⟨b1, b2, b3, b4⟩ := h'.leads hj hl'
  cases n with
  | zero => rw [h.get_zero hi] at he; cases he
  | succ n =>
    rw [h.get hi, a4] at he
    have hcm : Committed C.ids w.hist g t (n + 1) := by
      refine ⟨⟨by omega, ?_⟩, V, hV, fun v hv => ?_⟩
      · rw [show n + 1 - 1 = n by omega, he, ← het]; rfl
      · rcases hc v hv with rfl | hcf
        · exact .inr ⟨a3, getElem?_lt he⟩
        · exact .inl (confirmed_hist hcf)
    have hlen := hcm.1.length
    have hp := h'.safe.has (hcm.mono hs hle.llog) (Nat.le_of_lt htu) ⟨j, b3⟩
    rw [← take_of_prefix (hle.llog t) hlen] at hp
    intro k hk
    cases k with
    | zero => rw [h.get_zero hi, h'.get_zero hj]
    | succ k => rw [h.get hi, h'.get hj, a4, b4]; exact get_take_prefix hp hlen (by omega)

/-- Server 2 confirms the first entry of server 1, the leader of term 1; later server 2 is leader of term 2. -/
example : ∃ C : Cluster, C.Ok ∧ ∃ w w', C.Reach w ∧ C.Run w w' ∧ w.Leads 1 1 ∧
    ((w.log 1).get? 1).map Entry.term = some 1 ∧ C.Majority [1, 2] ∧ Confirmed w.evs 2 1 1 ∧ w'.Leads 2 2 := by
  obtain ⟨w, w', h, h', hp⟩ := World.witness2 (C := trio) (opening 1) (older.take 4)
    (fun w w' => w.leadsB 1 1 && (decide (((w.log 1).get? 1).map Entry.term = some 1) && (confirmedB w.evs 2 1 1 &&
      w'.leadsB 2 2))) (by decide +kernel)
  rw [Bool.and_eq_true, Bool.and_eq_true, Bool.and_eq_true] at hp
  exact ⟨trio, trio_ok, w, w', h, h', World.leadsB_iff.1 hp.1, of_decide_eq_true hp.2.1,
    ⟨by decide, by decide, by decide⟩, confirmedB_sound hp.2.2.1, World.leadsB_iff.1 hp.2.2.2⟩

/-! ## C44: state machine safety -/

/-- C44, partial. Entries of the same term that are handed to state machines at the same index are the same; so two servers
can only apply different entries if these were made by different leaders. This holds in all executions. -/
theorem applied_same_term_partial (hC : C.Ok) (hr : C.Reach w) {a b : Ev} {k : Nat} {x y : Entry} (ha : a ∈ w.evs)
    (hb : b ∈ w.evs) (ea : a.eff = .commit k x) (eb : b.eff = .commit k y) (ht : x.term = y.term) : x = y := by
  obtain ⟨ps, g, h⟩ := hr.inv hC
  have h1 := (h.safe.applied (mem_hist.2 ⟨a, ha, rfl, ea⟩)).2
  have h2 := (h.safe.applied (mem_hist.2 ⟨b, hb, rfl, eb⟩)).2
  rw [← ht, h1] at h2
  exact Option.some.inj h2

/-- C44, partial. Entries handed to the state machines at the same index are the same, if leaders raised their commit index
only with a majority behind an entry of their own term, and followers only up to the entries of the request. What is missing:
the code does neither, see `state_machine_safety_fails_lead`, `state_machine_safety_fails_again`,
`state_machine_safety_fails_late` and `state_machine_safety_fails_follow`. -/
theorem state_machine_safety_partial (hC : C.Ok) (hr : C.Reach w) (hl : C.CarefulLeaders w.evs)
    (hf : CarefulFollowers w.evs) {a b : Ev} {k : Nat} {x y : Entry} (ha : a ∈ w.evs) (hb : b ∈ w.evs)
    (ea : a.eff = .commit k x) (eb : b.eff = .commit k y) : x = y := by
  obtain ⟨ps, g, h, hk⟩ := CommOk.reach hC hr ⟨hl, hf⟩
  exact CommOk.agree h.safe hk (mem_hist.2 ⟨a, ha, rfl, ea⟩) (mem_hist.2 ⟨b, hb, rfl, eb⟩)

/-- Servers 1 and 2 have applied command 7 at index 2, and everybody was careful. -/
example : ∃ C : Cluster, C.Ok ∧ ∃ w, C.Reach w ∧ C.CarefulLeaders w.evs ∧ CarefulFollowers w.evs ∧
    (∃ a ∈ w.evs, a.node = 1 ∧ a.eff = .commit 2 ⟨3, .app 7⟩) ∧ ∃ b ∈ w.evs, b.node = 2 ∧ b.eff = .commit 2 ⟨3, .app 7⟩ := by
  obtain ⟨w, h, hp⟩ := World.witness (C := trio1) (opening 3 ++ late ++ [.apply 1])
    (fun w => trio1.carefulLeadersB w.evs && (carefulFollowersB w.evs && (w.did 1 (.commit 2 ⟨3, .app 7⟩) &&
      w.did 2 (.commit 2 ⟨3, .app 7⟩)))) (by decide +kernel)
  rw [Bool.and_eq_true, Bool.and_eq_true, Bool.and_eq_true] at hp
  exact ⟨trio1, trio1_ok, w, h, Cluster.carefulLeadersB_sound trio1_ok hp.1, carefulFollowersB_sound hp.2.1,
    World.did_mem hp.2.2.1, World.did_mem hp.2.2.2⟩

/-- Not C44. A leader counts the servers that have an entry of an earlier term, and commits it; a later leader without this
entry replaces it, and commits its own. Answers were timely, elected leaders had no old records, followers were careful. -/
theorem state_machine_safety_fails_lead : ∃ C : Cluster, C.Ok ∧ ∃ w, C.Only (fun _ s x es => Timely s x ∧ Fresh s es) w ∧
    CarefulFollowers w.evs ∧ ∃ a b k x y, a ∈ w.evs ∧ b ∈ w.evs ∧ a.eff = .commit k x ∧ b.eff = .commit k y ∧ x ≠ y := by
  obtain ⟨w, h, hp⟩ := World.only (C := trio) (fun _ => heedfulB) (fun _ _ _ _ => heedfulB_sound) (opening 1 ++ older ++ newer)
    (fun w => carefulFollowersB w.evs && (w.did 1 (.commit 2 ⟨1, .app 7⟩) && w.did 2 (.commit 2 ⟨2, .app 8⟩)))
    (by decide +kernel)
  rw [Bool.and_eq_true, Bool.and_eq_true] at hp
  obtain ⟨a, a1, _, a2⟩ := World.did_mem hp.2.1
  obtain ⟨b, b1, _, b2⟩ := World.did_mem hp.2.2
  exact ⟨trio, trio_ok, w, h, carefulFollowersB_sound hp.1, a, b, 2, _, _, a1, b1, a2, b2, by decide⟩

/-- Not C44. A follower takes over the commit index of an append request although it has not compared its own entries up to
there with those of the leader. Leaders were careful, answers timely, and elected leaders had no old records. -/
theorem state_machine_safety_fails_follow : ∃ C : Cluster, C.Ok ∧ ∃ w, C.Only (fun _ s x es => Timely s x ∧ Fresh s es) w ∧
    C.OwnEntries w.evs ∧ C.CarefulLeaders w.evs ∧ ∃ a b k x y, a ∈ w.evs ∧ b ∈ w.evs ∧ a.eff = .commit k x ∧
    b.eff = .commit k y ∧ x ≠ y := by
  obtain ⟨w, h, hp⟩ := World.only (C := trio1) (fun _ => heedfulB) (fun _ _ _ _ => heedfulB_sound) (opening 3 ++ late ++ beyond)
    (fun w => trio1.ownEntriesB w.evs && (trio1.carefulLeadersB w.evs && (w.did 1 (.commit 3 ⟨3, .app 9⟩) &&
      w.did 2 (.commit 3 ⟨4, .app 8⟩)))) (by decide +kernel)
  rw [Bool.and_eq_true, Bool.and_eq_true, Bool.and_eq_true] at hp
  obtain ⟨a, a1, _, a2⟩ := World.did_mem hp.2.2.1
  obtain ⟨b, b1, _, b2⟩ := World.did_mem hp.2.2.2
  exact ⟨trio1, trio1_ok, w, h, Cluster.ownEntriesB_sound hp.1, Cluster.carefulLeadersB_sound trio1_ok hp.2.1, a, b, 3, _, _,
    a1, b1, a2, b2, by decide⟩

/-- Not C44. What a leader records about the entries the others have is kept when it is elected again. A leader counts server
2, which confirmed four entries in an earlier term and has lost them since: it commits entries of its own term which only it
and one other server of five have. Leaders committed entries of their own terms only, followers were careful, and nothing
unusual reached a server: every positive answer was of the term of the leader that got it. -/
theorem state_machine_safety_fails_again : ∃ C : Cluster, C.Ok ∧ ∃ w, C.Only (fun i s x _ => C.Usual i s x ∧ Timely s x) w ∧
    C.OwnEntries w.evs ∧ CarefulFollowers w.evs ∧ ∃ a b k x y, a ∈ w.evs ∧ b ∈ w.evs ∧ a.eff = .commit k x ∧
    b.eff = .commit k y ∧ x ≠ y := by
  obtain ⟨w, h, hp⟩ := World.only (C := five) (P := fun i s x _ => five.Usual i s x ∧ Timely s x)
    (fun i s x _ => five.usualB i s x && timelyB s x)
    (fun _ _ _ _ h => ⟨Cluster.usualB_sound (Bool.and_eq_true _ _ ▸ h).1, timelyB_sound (Bool.and_eq_true _ _ ▸ h).2⟩)
    (recorded ++ minority ++ replaced)
    (fun w => five.ownEntriesB w.evs && (carefulFollowersB w.evs && (w.did 1 (.commit 4 ⟨3, .app 11⟩) &&
      w.did 2 (.commit 4 ⟨4, .app 20⟩)))) (by decide +kernel)
  rw [Bool.and_eq_true, Bool.and_eq_true, Bool.and_eq_true] at hp
  obtain ⟨a, a1, _, a2⟩ := World.did_mem hp.2.2.1
  obtain ⟨b, b1, _, b2⟩ := World.did_mem hp.2.2.2
  exact ⟨five, five_ok, w, h, Cluster.ownEntriesB_sound hp.1, carefulFollowersB_sound hp.2.1, a, b, 4, _, _, a1, b1, a2, b2,
    by decide⟩

/-- Not C44. A leader accepts positive answers of earlier terms. It counts server 2, whose late answer says that it has three
entries, which it has lost since. Leaders committed entries of their own terms only, followers were careful, and whoever was
elected had no old records. -/
theorem state_machine_safety_fails_late : ∃ C : Cluster, C.Ok ∧ ∃ w, C.Only (fun _ s _ es => Fresh s es) w ∧
    C.OwnEntries w.evs ∧ CarefulFollowers w.evs ∧ ∃ a b k x y, a ∈ w.evs ∧ b ∈ w.evs ∧ a.eff = .commit k x ∧
    b.eff = .commit k y ∧ x ≠ y := by
  obtain ⟨w, h, hp⟩ := World.only (C := five) (fun _ s _ es => freshB s es) (fun _ _ _ _ => freshB_sound) (unheard ++ arrives ++ supplants)
    (fun w => five.ownEntriesB w.evs && (carefulFollowersB w.evs && (w.did 1 (.commit 3 ⟨5, .app 11⟩) &&
      w.did 2 (.commit 3 ⟨6, .app 20⟩)))) (by decide +kernel)
  rw [Bool.and_eq_true, Bool.and_eq_true, Bool.and_eq_true] at hp
  obtain ⟨a, a1, _, a2⟩ := World.did_mem hp.2.2.1
  obtain ⟨b, b1, _, b2⟩ := World.did_mem hp.2.2.2
  exact ⟨five, five_ok, w, h, Cluster.ownEntriesB_sound hp.1, carefulFollowersB_sound hp.2.1, a, b, 3, _, _, a1, b1, a2, b2,
    by decide⟩

/-- C44, partial. Entries handed to the state machines at the same index are the same, in all executions where positive answers
reach only the leader of their own term, elected servers have no old records of what the others have, leaders commit entries of
their own terms, and followers take over a commit index only up to the entries of the request. That every commit is backed by
a majority is proved here, not assumed. What is missing: the code ensures none of the four, and each is needed; see
`state_machine_safety_fails_late`, `state_machine_safety_fails_again`, `state_machine_safety_fails_lead` and
`state_machine_safety_fails_follow`. -/
theorem state_machine_safety_timely_partial (hC : C.Ok) (hr : C.Only (fun _ s x es => Timely s x ∧ Fresh s es) w)
    (ho : C.OwnEntries w.evs) (hf : CarefulFollowers w.evs) {a b : Ev} {k : Nat} {x y : Entry} (ha : a ∈ w.evs)
    (hb : b ∈ w.evs) (ea : a.eff = .commit k x) (eb : b.eff = .commit k y) : x = y :=
  state_machine_safety_partial hC hr.reach (hr.careful hC ho).2 hf ha hb ea eb

/-- Servers 1 and 2 have applied command 7 at index 2, and all four conditions were met. -/
example : ∃ C : Cluster, C.Ok ∧ ∃ w, C.Only (fun _ s x es => Timely s x ∧ Fresh s es) w ∧ C.OwnEntries w.evs ∧
    CarefulFollowers w.evs ∧ (∃ a ∈ w.evs, a.node = 1 ∧ a.eff = .commit 2 ⟨3, .app 7⟩) ∧
    ∃ b ∈ w.evs, b.node = 2 ∧ b.eff = .commit 2 ⟨3, .app 7⟩ := by
  obtain ⟨w, h, hp⟩ := World.only (C := trio1) (fun _ => heedfulB) (fun _ _ _ _ => heedfulB_sound)
    (opening 3 ++ late ++ [.apply 1])
    (fun w => trio1.ownEntriesB w.evs && (carefulFollowersB w.evs && (w.did 1 (.commit 2 ⟨3, .app 7⟩) &&
      w.did 2 (.commit 2 ⟨3, .app 7⟩)))) (by decide +kernel)
  rw [Bool.and_eq_true, Bool.and_eq_true, Bool.and_eq_true] at hp
  exact ⟨trio1, trio1_ok, w, h, Cluster.ownEntriesB_sound hp.1, carefulFollowersB_sound hp.2.1, World.did_mem hp.2.2.1,
    World.did_mem hp.2.2.2⟩

end Cs.Raft
