import Verif.Raft.Settings
import Verif.Raft.PropsApi
import Verif.Link.PropsBatch
import Verif.Cluster.Stall
import Verif.Cluster.Witness

/-!
# C102: settings are respected, and every setting that is accepted works

`raft_params` takes every value. The times, the numbers of entries and the arithmetic are as documented for settings in the right
order and of a reasonable size (the `_partial` theorems); others are accepted as well and give undefined behaviour, late heartbeats,
or a cluster that commits nothing, in every execution.
-/

namespace Cs.Raft
open Cs

/-! ## Calls -/

/-- C102: after any chain of calls, a further call sets the value it names and leaves all others as they were. -/
theorem settings_kept (cs : List Setter) (v : Int) (b : Bool) :
    Settings.build (cs ++ [.electionUpper v]) = { Settings.build cs with electionUpper := v } ∧
    Settings.build (cs ++ [.electionLower v]) = { Settings.build cs with electionLower := v } ∧
    Settings.build (cs ++ [.hbInterval v]) = { Settings.build cs with hbInterval := v } ∧
    Settings.build (cs ++ [.rpcBackoff v]) = { Settings.build cs with rpcBackoff := v } ∧
    Settings.build (cs ++ [.maxAppend v]) = { Settings.build cs with maxAppend := v } ∧
    Settings.build (cs ++ [.logSyncBatch v]) = { Settings.build cs with logSyncBatch := v } ∧
    Settings.build (cs ++ [.logSyncGap v]) = { Settings.build cs with logSyncGap := v } ∧
    Settings.build (cs ++ [.snpDistance v]) = { Settings.build cs with snpDistance := v } ∧
    Settings.build (cs ++ [.snpBlock v]) = { Settings.build cs with snpBlock := v } ∧
    Settings.build (cs ++ [.reserved v]) = { Settings.build cs with reserved := v } ∧
    Settings.build (cs ++ [.prevote b]) = { Settings.build cs with prevote := b } ∧
    Settings.build (cs ++ [.defensive b]) = { Settings.build cs with defensive := b } := by
  simp only [Settings.build, List.foldl_append, List.foldl_cons, List.foldl_nil, Setter.set, and_self]

example : Settings.build [.hbInterval 50, .maxAppend 7, .hbInterval 60] = { hbInterval := 60, maxAppend := 7 } := by decide

/-! ## Times -/

/-- Heartbeats come often enough: the interval is at least 2 ms and below the shortest election timeout, bounds are in order, and the
back-off is not negative. -/
structure Settings.Timely (s : Settings) : Prop where
  interval : 2 ≤ s.hbInterval
  below : s.hbInterval < s.electionLower
  bounds : s.electionLower ≤ s.electionUpper
  backoff : 0 ≤ s.rpcBackoff

/-- C102, `_partial`: if the times are in order, the election timer is always set to a time between the two bounds, and whatever a
server has been through, the interval at which it sends heartbeats to any member is shorter than any election timeout. Missing: other
settings, see `timeout_undefined` and `heartbeats_late`. -/
theorem heartbeats_in_time_partial {s : Settings} (hs : s.Timely) {id : Int} {env : Env} {cfg : Config} {xs : List Input} {fx : List Eff}
    {d : Disk} {srv : Srv} (h : Hist ⟨id, s.params, env⟩ (Node.fresh cfg) xs fx ⟨d, some srv⟩) {t : Draw} (ht : s.Timeout t) :
    ∃ v, t = .value v ∧ s.electionLower ≤ v ∧ v ≤ s.electionUpper ∧ ∀ p ∈ srv.peers, s.hbInterval ≤ p.hbInterval ∧ p.hbInterval < v := by
  cases ht with
  | @value v h1 h2 =>
    refine ⟨v, rfl, h1, h2, fun p hp => ?_⟩
    obtain ⟨b1, b2⟩ := (hb_interval_bounds_partial (c := ⟨id, s.params, env⟩) hs.backoff h).1 p hp
    refine ⟨b1, ?_⟩
    have b2 : p.hbInterval ≤ max s.hbInterval (s.electionLower - s.hbInterval.tdiv 2) := b2
    have i1 := hs.interval
    have i2 := hs.below
    have : (1 : Int) ≤ s.hbInterval.tdiv 2 := by rw [Int.tdiv_eq_ediv_of_nonneg (by omega)]; omega
    omega
  | outside h1 => have := hs.bounds; omega

/-- The settings of the constructor are in order. -/
example : (Settings.build []).Timely := ⟨by decide, by decide, by decide, by decide⟩

/-- C102 fails: raising the lower bound alone, to 400 ms, leaves the upper bound at 300 ms; nothing checks this, and the random
timeouts of the server are undefined. The same holds for all settings in this order. -/
theorem timeout_undefined {s : Settings} (h : s.electionUpper < s.electionLower) : s.Timeout .undefined := .outside h

example : (Settings.build [.electionLower 400]).Timeout .undefined := timeout_undefined (by decide)

/-- C102 fails: with an interval that is not below the shortest election timeout, no matter what a server has been through, the interval at
which it sends heartbeats to a member is never below all election timeouts: a member may always stand for election between two of them. -/
theorem heartbeats_late {s : Settings} (hb : s.electionLower ≤ s.hbInterval) (ho : s.electionLower ≤ s.electionUpper) (h0 : 0 ≤ s.rpcBackoff)
    {id : Int} {env : Env} {cfg : Config} {xs : List Input} {fx : List Eff} {d : Disk} {srv : Srv}
    (h : Hist ⟨id, s.params, env⟩ (Node.fresh cfg) xs fx ⟨d, some srv⟩) : ∀ p ∈ srv.peers, ∃ v, s.Timeout (.value v) ∧ v ≤ p.hbInterval :=
  fun p hp => ⟨s.electionLower, .value (Int.le_refl _) ho,
    Int.le_trans hb ((hb_interval_bounds_partial (c := ⟨id, s.params, env⟩) h0 h).1 p hp).1⟩

example : (Settings.build [.hbInterval 200]).electionLower ≤ (Settings.build [.hbInterval 200]).hbInterval := by decide

/-! ## Arithmetic -/

/-- No number is so large that sums and products of two of them overflow. -/
structure Settings.Small (s : Settings) : Prop where
  upper : 0 ≤ s.electionUpper ∧ s.electionUpper < 2 ^ 30
  lower : 0 ≤ s.electionLower ∧ s.electionLower < 2 ^ 30
  interval : 0 ≤ s.hbInterval ∧ s.hbInterval < 2 ^ 30
  backoff : 0 ≤ s.rpcBackoff ∧ s.rpcBackoff < 2 ^ 30

/-- C102, `_partial`: for numbers below 2^30 no computation with the settings overflows, and the results are those the other properties
are about (`Params.maxHb`, `slowDownHb`). Missing: larger numbers, `silence_undefined`. -/
theorem arithmetic_defined_partial {s : Settings} (h : s.Small) : s.silence = some (s.electionUpper * 2) ∧ s.maxHb = some s.params.maxHb ∧
    ∀ p : Peer, s.hbInterval ≤ p.hbInterval → p.hbInterval ≤ s.params.maxHb →
      s.slowDown p.hbInterval = some (slowDownHb s.params p).hbInterval := by
  obtain ⟨⟨u1, u2⟩, ⟨l1, l2⟩, ⟨i1, i2⟩, b1, b2⟩ := h
  have ht : 0 ≤ s.hbInterval.tdiv 2 ∧ s.hbInterval.tdiv 2 ≤ s.hbInterval := by
    rw [Int.tdiv_eq_ediv_of_nonneg i1]; omega
  have hm : s.maxHb = some s.params.maxHb := by
    unfold Settings.maxHb int32?
    rw [if_pos (by omega)]
    rfl
  have hle : s.params.maxHb < 2 ^ 30 := by
    show max s.hbInterval (s.electionLower - s.hbInterval.tdiv 2) < 2 ^ 30
    omega
  refine ⟨?_, hm, fun p h1 h2 => ?_⟩
  · unfold Settings.silence int32?
    rw [if_pos (by omega)]
  · unfold Settings.slowDown int32?
    rw [hm, if_pos (by omega)]
    rfl

example : (Settings.build []).Small := ⟨by decide, by decide, by decide, by decide⟩

/-- C102 fails: with an upper bound of 2^30 ms (12 days) or more, `is_leader` computes a product that overflows. -/
theorem silence_undefined {s : Settings} (h : 2 ^ 30 ≤ s.electionUpper) : s.silence = none := by
  unfold Settings.silence int32?
  rw [if_neg (by omega)]

example : (Settings.build [.electionUpper 1073741824]).silence = none := silence_undefined (by decide)

/-- C52 and C102, `_partial`: whatever a server has been through, after a failed request no computation of the new interval overflows, for
members and for a server that joins, and the result is that of the model of the server. Missing: larger numbers,
`backoff_undefined`. -/
theorem backoff_defined_partial {s : Settings} (hs : s.Small) {id : Int} {env : Env} {cfg : Config} {xs : List Input} {fx : List Eff}
    {d : Disk} {srv : Srv} (h : Hist ⟨id, s.params, env⟩ (Node.fresh cfg) xs fx ⟨d, some srv⟩) {p : Peer}
    (hp : p ∈ srv.peers ∨ srv.srvToJoin = some p) : s.slowDown p.hbInterval = some (slowDownHb s.params p).hbInterval := by
  obtain ⟨h1, h2⟩ := hb_interval_bounds_partial (c := ⟨id, s.params, env⟩) hs.backoff.1 h
  obtain ⟨h3, h4⟩ := hp.elim (h1 p) (h2 p)
  exact (arithmetic_defined_partial hs).2.2 p h3 h4

/-- C52 and C102 fail: if the interval and the back-off together reach 2^31, then whatever a server has been through, the first
failed request to any member overflows. -/
theorem backoff_undefined {s : Settings} (h0 : 0 ≤ s.rpcBackoff) (ho : 2 ^ 31 ≤ s.hbInterval + s.rpcBackoff) {id : Int} {env : Env}
    {cfg : Config} {xs : List Input} {fx : List Eff} {d : Disk} {srv : Srv}
    (h : Hist ⟨id, s.params, env⟩ (Node.fresh cfg) xs fx ⟨d, some srv⟩) : ∀ p ∈ srv.peers, s.slowDown p.hbInterval = none := by
  intro p hp
  have h1 := ((hb_interval_bounds_partial (c := ⟨id, s.params, env⟩) h0 h).1 p hp).1
  have h1 : s.hbInterval ≤ p.hbInterval := h1
  have : int32? (p.hbInterval + s.rpcBackoff) = none := if_neg (by omega)
  unfold Settings.slowDown
  rw [this]
  cases s.maxHb <;> rfl

/-- Settings that the calls accept: an interval of 75 ms and a back-off of 2^31 - 1 ms. A server that has started with them has
members. -/
example : 0 ≤ (Settings.build [.rpcBackoff 2147483647]).rpcBackoff ∧
    2 ^ 31 ≤ (Settings.build [.rpcBackoff 2147483647]).hbInterval + (Settings.build [.rpcBackoff 2147483647]).rpcBackoff ∧
    ∃ (d : Disk) (srv : Srv) (fx : List Eff), Hist ⟨1, (Settings.build [.rpcBackoff 2147483647]).params, Env.plain⟩ (Node.fresh conf3)
      [] fx ⟨d, some srv⟩ ∧ srv.peers ≠ [] := by
  refine ⟨by decide, by decide, ?_⟩
  obtain ⟨⟨d, up⟩, fx, h, hp⟩ := Node.witness (c := ⟨1, (Settings.build [.rpcBackoff 2147483647]).params, Env.plain⟩)
    (n := Node.fresh conf3) [.start] (fun n _ => match n.up with
      | some s => decide (s.peers ≠ [])
      | none => false) (by decide +kernel)
  cases up with
  | none => cases hp
  | some srv => exact ⟨d, srv, fx, h, of_decide_eq_true hp⟩

/-! ## Numbers of entries -/

theorem u64OfInt_nonneg {x : Int} (h1 : 0 ≤ x) (h2 : x < 2 ^ 64) : u64OfInt x = x.toNat := by
  unfold u64OfInt
  rw [BitVec.toNat_ofInt]
  congr 1
  exact Int.emod_eq_of_lt h1 (by simpa using h2)

theorem u64OfInt_neg {x : Int} (h1 : x < 0) (h2 : -2 ^ 64 ≤ x) : u64OfInt x = 2 ^ 64 - (-x).toNat := by
  unfold u64OfInt
  rw [BitVec.toNat_ofInt]
  have : x % ((2 ^ 64 : Nat) : Int) = x + 2 ^ 64 := by
    rw [← Int.add_mul_emod_self_left x ((2 ^ 64 : Nat) : Int) 1]
    refine Int.emod_eq_of_lt ?_ ?_ <;> simp <;> omega
  rw [this]
  omega

/-- The entries that go into an append request are those of the model of the server. -/
theorem endIdx_model {s : Settings} (h1 : 0 ≤ s.maxAppend) (h2 : s.maxAppend < 2 ^ 31) {next last : Nat} (hl : last + 1 + 2 ^ 31 ≤ 2 ^ 64) :
    s.endIdx next last = min next (last + 1 + s.params.maxAppend) := by
  unfold Settings.endIdx
  show min next ((last + 1 + u64OfInt s.maxAppend) % 2 ^ 64) = min next (last + 1 + u64OfInt s.maxAppend)
  rw [u64OfInt_nonneg h1 (by omega), Nat.mod_eq_of_lt (by omega)]

/-- C102, `_partial`: whatever a server has been through, no append request it sends has more entries than `max_append_size_` and no log
pack for a server that joins more than `log_sync_batch_size_`. Requests that are sent again are assumed to have been like this. Missing:
negative numbers of entries, see `negative_size` and `negative_batch`. -/
theorem sizes_respected_partial {s : Settings} (h0 : 0 ≤ s.maxAppend ∧ s.maxAppend < 2 ^ 31) {id : Int} {env : Env} {cfg : Config}
    {xs : List Input} {fx : List Eff} {n : Node} (h : Hist ⟨id, s.params, env⟩ (Node.fresh cfg) xs fx n)
    (hx : ∀ r, .retry r ∈ xs → r.Few s.params) {r : Req} (hr : .send r ∈ fx) :
    (r.type = .appendReq → (r.entries.length : Int) ≤ s.maxAppend) ∧
      (0 ≤ s.logSyncBatch → 0 ≤ s.logSyncGap → (r.pack.length : Int) ≤ s.logSyncBatch) := by
  obtain ⟨h1, h2⟩ := (h.few (c := ⟨id, s.params, env⟩) (fun _ hs => by cases hs) hx).2 r hr
  refine ⟨fun ht => ?_, fun h3 h4 => by have := h2 h3 h4; have : r.pack.length ≤ s.logSyncBatch.toNat := this; omega⟩
  rw [if_pos ht] at h1
  have h1 : r.entries.length ≤ u64OfInt s.maxAppend := h1
  rw [u64OfInt_nonneg h0.1 (by omega)] at h1
  omega

example : ∃ (d : Disk) (srv : Srv) (fx : List Eff) (r : Req), Hist ⟨1, (Settings.build [.maxAppend 1]).params, Env.plain⟩ (Node.fresh conf3)
    [.electionTimeout, voteRespOf 2 1 true] fx ⟨d, some srv⟩ ∧ .send r ∈ fx ∧ r.type = .appendReq ∧ r.entries.length = 1 := by
  obtain ⟨⟨d, up⟩, fx, h, hp⟩ := Node.witness (c := ⟨1, (Settings.build [.maxAppend 1]).params, Env.plain⟩) (n := Node.fresh conf3)
    [.start, .go .electionTimeout, .go (voteRespOf 2 1 true)]
    (fun n fx => n.up.isSome && fx.any fun e => match e with
      | .send r => decide (r.type = .appendReq) && decide (r.entries.length = 1)
      | _ => false) (by decide +kernel)
  rw [Bool.and_eq_true] at hp
  obtain ⟨srv, hu⟩ := Option.isSome_iff_exists.1 hp.1
  obtain ⟨e, he, h2⟩ := List.any_eq_true.1 hp.2
  have hu : up = some srv := hu
  subst hu
  cases e with
  | send r =>
    have h2 : (decide (r.type = .appendReq) && decide (r.entries.length = 1)) = true := h2
    rw [Bool.and_eq_true, decide_eq_true_eq, decide_eq_true_eq] at h2
    exact ⟨d, srv, fx, r, h, he, h2⟩
  | _ => cases h2

/-- C102 fails: with a negative number -k of entries the end of the range is before its start as soon as the member has k entries, so that
append requests carry none from then on (and any number before). -/
theorem negative_size {s : Settings} (h1 : s.maxAppend < 0) (h2 : -2 ^ 31 ≤ s.maxAppend) {next last : Nat} (hl : last + 1 < 2 ^ 64)
    (hk : -s.maxAppend ≤ last + 1) : s.endIdx next last < last + 1 := by
  unfold Settings.endIdx
  rw [u64OfInt_neg h1 (by omega)]
  have : last + 1 + (2 ^ 64 - (-s.maxAppend).toNat) = (last + 1 - (-s.maxAppend).toNat) + 2 ^ 64 := by omega
  rw [this, Nat.add_mod_right, Nat.mod_eq_of_lt (by omega)]
  omega

/-- Fewer entries than k: the range is all that is left. -/
example : (Settings.build [.maxAppend (-5)]).endIdx 100 3 = 100 ∧ (Settings.build [.maxAppend (-5)]).endIdx 100 4 = 0 := by decide +kernel

/-! ## Clusters that commit nothing -/

/-- C102 fails: with 0 entries in a request, a cluster of two or more servers commits nothing and hands nothing to any state machine, in no
execution, and an entry that one server has made gets into the log of no other one. -/
theorem nothing_committed {C : Cluster} (hC : C.Ok) (h2 : 2 ≤ C.ids.length) {s : Int → Settings} (hs : ∀ i ∈ C.ids, C.params i = (s i).params)
    (h0 : ∀ i ∈ C.ids, (s i).maxAppend = 0) {w : World} (hw : C.Reach w) :
    (∀ ev ∈ w.evs, (∀ n, ev.eff ≠ .advance n) ∧ ∀ n e, ev.eff ≠ .commit n e) ∧
    ∀ i ∈ C.ids, ∀ j ∈ C.ids, i ≠ j → ∀ e ∈ (w.log i).ents, ∀ x ∈ (w.log j).ents, e.term ≠ x.term := by
  have hmax : ∀ i ∈ C.ids, (C.params i).maxAppend = 0 := fun i hi => by
    rw [hs i hi]
    show u64OfInt (s i).maxAppend = 0
    rw [h0 i hi]; rfl
  have h := Stalled.reach hC h2 hmax hw
  obtain ⟨ps, g, hI⟩ := Cluster.Reach.inv hC hw
  refine ⟨fun ev hev => ⟨fun n hn => ?_, fun n e hn => ?_⟩, fun i hi j hj hij e he x hx ht => ?_⟩
  · exact h.still (mem_hist.2 ⟨ev, hev, rfl, hn⟩)
  · exact h.none (mem_hist.2 ⟨ev, hev, rfl, hn⟩)
  · have a := h.own i hi e he
    have b := h.own j hj x hx
    rw [← ht] at b
    exact hij (hI.safe.logs.votes.one_leader hC.named a b)

namespace Witness

/-- Three servers that send no entries. -/
def trio0 : Cluster := { trio with params := fun _ => (Settings.build [.maxAppend 0]).params }

/-- In such a cluster a leader is elected and accepts a command. -/
example : ∃ w, trio0.Reach w ∧ trio0.Ok ∧ w.Leads 1 1 ∧ ∃ e ∈ (w.log 1).ents, e.val = .app 7 := by
  obtain ⟨w, h, hp⟩ := World.witness (C := trio0) [.start 1, .start 2, .start 3, .election 1, .recv 3, .back 3 7, .recv 11, .recv 12,
      .back 11 15, .back 12 16, .client 1 7]
    (fun w => (match (w.node 1).up with | some s => decide (s.role = .leader ∧ s.term = 1) | none => false) &&
      (w.log 1).ents.any fun e => decide (e.val = .app 7)) (by decide +kernel)
  rw [Bool.and_eq_true] at hp
  refine ⟨w, h, ⟨by decide, by decide, fun _ => rfl, fun _ => rfl⟩, ?_, ?_⟩
  · cases hu : (w.node 1).up with
    | none => rw [hu] at hp; cases hp.1
    | some s =>
      rw [hu] at hp
      obtain ⟨a, b⟩ := of_decide_eq_true hp.1
      exact ⟨s, hu, a, b⟩
  · obtain ⟨e, he, h2⟩ := List.any_eq_true.1 hp.2
    exact ⟨e, he, of_decide_eq_true h2⟩

end Witness

end Cs.Raft
