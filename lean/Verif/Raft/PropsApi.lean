import Verif.Raft.Soft
import Verif.Raft.PropsLog
import Verif.Raft.PropsLeader

/-!
# The calls of the application and the heartbeat intervals (C46, C47, C52)
-/

namespace Cs.Raft
open Cs

/-! ## C46: `is_leader` is withdrawn when the majority is silent -/

/-- The peers that answered within twice the upper election timeout. -/
def Srv.recent (s : Srv) : List Peer :=
  s.peers.filter fun p => decide ((s.now : Int) - p.lastResp ≤ s.params.electionUpper * 2)

/-- More than half of the servers are this one or answered recently. -/
def Srv.HeardMajority (s : Srv) : Prop := s.peers.length + 1 < 2 * (s.recent.length + 1)

instance (s : Srv) : Decidable s.HeardMajority := inferInstanceAs (Decidable (_ < _))

/-- A server that handles a list of inputs, without restart. -/
def Srv.afterInputs (s : Srv) (xs : List Input) : Srv := xs.foldl (fun s x => (x.run { s with trace := [] }).2) s

theorem toI32_id {x : Int} (h1 : -2 ^ 31 ≤ x) (h2 : x < 2 ^ 31) : toI32 x = x := by
  unfold toI32
  rw [BitVec.toInt_ofInt]
  rw [Int.bmod_def]
  omega

/-- In a descending list, the entry at `k` has an upward closed property iff more than `k` entries have it. -/
theorem sorted_count {l : List Nat} {k n : Nat} (P : Nat → Bool) (hP : ∀ a b, a ≤ b → P a = true → P b = true)
    (hp : l.Pairwise fun a b => decide (b ≤ a) = true) (hk : l[k]? = some n) :
    P n = true ↔ k < (l.filter P).length := by
  have hlt : k < l.length := by
    rcases Nat.lt_or_ge k l.length with h | h
    · exact h
    · rw [List.getElem?_eq_none h] at hk; cases hk
  have hn : l[k] = n := by rw [List.getElem?_eq_getElem hlt] at hk; exact Option.some.inj hk
  constructor
  · intro h
    have h1 : ((l.take (k + 1)).filter P) = l.take (k + 1) := by
      rw [List.filter_eq_self]
      intro a ha
      obtain ⟨i, hi, rfl⟩ := List.mem_iff_getElem.1 ha
      rw [List.getElem_take]
      rw [List.length_take] at hi
      refine hP n _ ?_ h
      rw [← hn]
      rcases Nat.lt_or_ge i k with h | h
      · exact of_decide_eq_true (List.pairwise_iff_getElem.1 hp i k (by omega) hlt h)
      · have : i = k := by omega
        subst this
        exact Nat.le_refl _
    have h2 := ((List.take_sublist (k + 1) l).filter P).length_le
    rw [h1, List.length_take] at h2
    omega
  · intro h
    rcases hb : P n with _ | _
    · exfalso
      have h1 : (l.drop k).filter P = [] := by
        rw [List.filter_eq_nil_iff]
        intro a ha hpa
        obtain ⟨i, hi, rfl⟩ := List.mem_iff_getElem.1 ha
        rw [List.getElem_drop] at hpa
        rw [List.length_drop] at hi
        have hle : l[k + i] ≤ n := by
          rcases Nat.eq_zero_or_pos i with rfl | hi0
          · rw [← hn]; exact Nat.le_refl _
          · rw [← hn]
            exact of_decide_eq_true (List.pairwise_iff_getElem.1 hp k (k + i) hlt (by omega) (by omega))
        rw [hP _ _ hle hpa] at hb
        cases hb
      have h2 : l.filter P = (l.take k).filter P := by
        conv => lhs; rw [← List.take_append_drop k l, List.filter_append, h1, List.append_nil]
      rw [h2] at h
      have := List.length_filter_le P (l.take k)
      rw [List.length_take] at this
      omega
    · rfl

/-- The response time that decides. -/
theorem respTimes_get (s : Srv) (hp : s.peers ≠ []) : ∃ n, quorumResp s = n ∧
    (∃ p ∈ s.peers, p.lastResp = n) ∧
    (((s.now : Int) - n ≤ s.params.electionUpper * 2) ↔ s.HeardMajority) := by
  have hlen : (sortDesc (s.peers.map (·.lastResp))).length = s.peers.length := by
    rw [(sortDesc_perm _).length_eq, List.length_map]
  have hpos : 0 < s.peers.length := by
    rcases hs : s.peers with _ | _
    · exact absurd hs hp
    · simp
  have hk : s.peers.length - 1 - s.peers.length / 2 < (sortDesc (s.peers.map (·.lastResp))).length := by omega
  refine ⟨(sortDesc (s.peers.map (·.lastResp)))[s.peers.length - 1 - s.peers.length / 2], ?_, ?_, ?_⟩
  · unfold quorumResp respTimes
    rw [List.getElem?_reverse (by omega), hlen, List.getElem?_eq_getElem hk, Option.getD_some]
  · have h1 := (sortDesc_perm (s.peers.map (·.lastResp))).mem_iff.1 (List.getElem_mem hk)
    obtain ⟨p, hp, e⟩ := List.mem_map.1 h1
    exact ⟨p, hp, e⟩
  · have h1 := sorted_count (fun n : Nat => decide ((s.now : Int) - n ≤ s.params.electionUpper * 2))
      (fun a b hab ha => decide_eq_true (by have := of_decide_eq_true ha; omega))
      (sortDesc_pairwise (s.peers.map (·.lastResp))) (List.getElem?_eq_getElem hk)
    have h2 : ((sortDesc (s.peers.map (·.lastResp))).filter fun n : Nat =>
        decide ((s.now : Int) - n ≤ s.params.electionUpper * 2)).length = s.recent.length := by
      rw [((sortDesc_perm (s.peers.map (·.lastResp))).filter _).length_eq, List.filter_map, List.length_map]
      rfl
    rw [h2] at h1
    rw [decide_eq_true_iff] at h1
    rw [h1]
    unfold Srv.HeardMajority
    omega

/-- C46, `_partial`: as long as the value kept by `is_leader` from earlier calls is larger than twice the upper election
timeout (as it is until a call finds a majority), and no response is older than 2^31 ms (24 days), a leader with peers says
that it leads iff it heard from a majority. Missing: the calls after the first success (`is_leader_stuck` below), and the
times that do not fit into 32 bits (`is_leader_wraps`). -/
theorem is_leader_withdrawn_partial {s : Srv} (hr : s.role = .leader) (hp : s.peers ≠ [])
    (he : s.params.electionUpper * 2 < s.elapsed)
    (ht : ∀ p ∈ s.peers, -2 ^ 31 ≤ (s.now : Int) - p.lastResp ∧ (s.now : Int) - p.lastResp < 2 ^ 31) :
    (isLeader s).1 = .ok (decide s.HeardMajority) := by
  have hpos : 0 < s.peers.length := by
    rcases hs : s.peers with _ | _
    · exact absurd hs hp
    · simp
  obtain ⟨n, hn, ⟨p, hpm, hpn⟩, hm⟩ := respTimes_get s hp
  obtain ⟨ht1, ht2⟩ := ht p hpm
  unfold isLeader
  rw [bind_get, if_pos ⟨hr, hpos, he⟩, bind_modify, bind_get]
  rw [hn]
  show ((if s.params.electionUpper * 2 < toI32 ((s.now : Int) - (n : Nat)) then pure false
    else pure (decide (s.role = .leader)) : R Bool) _).1 = _
  rw [toI32_id (by rw [← hpn]; exact ht1) (by rw [← hpn]; exact ht2)]
  by_cases h : s.params.electionUpper * 2 < (s.now : Int) - n
  · rw [if_pos h, decide_eq_false (fun hh => absurd (hm.2 hh) (by omega))]
    rfl
  · rw [if_neg h, decide_eq_true (hm.1 (by omega)), decide_eq_true hr]
    rfl

/-- Whatever the times, only a leader says that it leads. -/
theorem is_leader_role {s : Srv} (h : (isLeader s).1 = .ok true) : s.role = .leader := by
  unfold isLeader at h
  rw [bind_get] at h
  by_cases hc : s.role = .leader ∧ 0 < s.peers.length ∧ s.params.electionUpper * 2 < s.elapsed
  · exact hc.1
  · rw [if_neg hc] at h
    have : decide (s.role = .leader) = true := Except.ok.inj h
    exact of_decide_eq_true this

theorem Srv.afterInputs_elapsed (xs : List Input) : ∀ s : Srv, s.elapsed ≤ s.params.electionUpper * 2 →
    (s.afterInputs xs).elapsed = s.elapsed ∧ (s.afterInputs xs).params = s.params := by
  induction xs with
  | nil => exact fun s _ => ⟨rfl, rfl⟩
  | cons x xs ih =>
    intro s h
    letI : HbSlow fun _ _ => True := { same := fun _ _ _ => trivial, base := fun _ => trivial, slow := fun _ => trivial }
    have h1 := sf_run (K := fun _ _ => True) x { s with trace := [] }
    have e2 : (x.run { s with trace := [] }).2.params = s.params := h1.params
    have e1 : (x.run { s with trace := [] }).2.elapsed = s.elapsed := by
      rcases h1.elapsed with e | e
      · exact e
      · have : s.params.electionUpper * 2 < s.elapsed := e
        omega
    have h2 := ih _ (show (x.run { s with trace := [] }).2.elapsed ≤ (x.run { s with trace := [] }).2.params.electionUpper * 2
      by rw [e1, e2]; exact h)
    exact ⟨h2.1.trans e1, h2.2.trans e2⟩

/-- C46 fails: after one call that found a majority, `is_leader` never looks at the response times again. Whatever happens
to the server afterwards, the answer is the role. -/
theorem is_leader_stuck {s : Srv} (h : s.elapsed ≤ s.params.electionUpper * 2) (xs : List Input) :
    (isLeader (s.afterInputs xs)).1 = .ok (decide ((s.afterInputs xs).role = .leader)) := by
  obtain ⟨h1, h2⟩ := s.afterInputs_elapsed xs h
  unfold isLeader
  rw [bind_get, if_neg (by rw [h1, h2]; omega)]
  rfl

/-- A client request with one entry. -/
def cliReq (d : Nat) : Input :=
  .req { type := .clientReq, term := 0, src := 0, dst := 1, lastTerm := 0, lastIdx := 0, commitIdx := 0, entries := [⟨0, .app d⟩] }

/-- C46 fails in a history: server 1 is elected by server 2, accepts an entry, and 10^6 ms later, when nobody has answered
for all that time, still says that it leads. -/
theorem silent_leader_stays :
    ∃ d s fx, Hist node1 (Node.fresh conf3)
        [.tick 1000, .electionTimeout, voteRespOf 2 1 true, cliReq 7, .tick 1001000] fx ⟨d, some s⟩ ∧
      s.role = .leader ∧ ¬s.HeardMajority ∧ (isLeader s).1 = .ok true := by
  obtain ⟨⟨d, up⟩, fx, h, hp⟩ := Node.witness (c := node1) (n := Node.fresh conf3)
    [.start, .go (.tick 1000), .go .electionTimeout, .go (voteRespOf 2 1 true), .go (cliReq 7), .go (.tick 1001000)]
    (fun n _ => match n.up with
      | some s => decide (s.role = .leader ∧ ¬s.HeardMajority ∧ (isLeader s).1.toOption = some true)
      | none => false) (by decide +kernel)
  cases up with
  | none => cases hp
  | some s =>
    obtain ⟨h1, h2, h3⟩ := of_decide_eq_true hp
    refine ⟨d, s, fx, h, h1, h2, ?_⟩
    rcases hr : (isLeader s).1 with e | b
    · rw [hr] at h3; cases h3
    · rw [hr] at h3; cases h3; rfl

/-- Without the entry, the same server notices. This also meets the hypotheses of `is_leader_withdrawn_partial`. -/
example : ∃ d s fx, Hist node1 (Node.fresh conf3)
      [.tick 1000, .electionTimeout, voteRespOf 2 1 true, .tick 1001000] fx ⟨d, some s⟩ ∧
    s.role = .leader ∧ s.peers ≠ [] ∧ s.params.electionUpper * 2 < s.elapsed ∧
    (∀ p ∈ s.peers, -2 ^ 31 ≤ (s.now : Int) - p.lastResp ∧ (s.now : Int) - p.lastResp < 2 ^ 31) ∧
    ¬s.HeardMajority := by
  obtain ⟨⟨d, up⟩, fx, h, hp⟩ := Node.witness (c := node1) (n := Node.fresh conf3)
    [.start, .go (.tick 1000), .go .electionTimeout, .go (voteRespOf 2 1 true), .go (.tick 1001000)]
    (fun n _ => match n.up with
      | some s => decide (s.role = .leader ∧ s.peers ≠ [] ∧ s.params.electionUpper * 2 < s.elapsed ∧
          (∀ p ∈ s.peers, -2 ^ 31 ≤ (s.now : Int) - p.lastResp ∧ (s.now : Int) - p.lastResp < 2 ^ 31) ∧ ¬s.HeardMajority)
      | none => false) (by decide +kernel)
  cases up with
  | none => cases hp
  | some s => exact ⟨d, s, fx, h, of_decide_eq_true hp⟩

/-- C46 fails for long times: the elapsed milliseconds are cut to 32 bits, so that 25 days of silence are negative. The
answer is wrong at the first call. -/
theorem is_leader_wraps :
    ∃ d s fx, Hist node1 (Node.fresh conf3)
        [.tick 1000, .electionTimeout, voteRespOf 2 1 true, .tick (1000 + 25 * 24 * 3600000)] fx ⟨d, some s⟩ ∧
      s.role = .leader ∧ ¬s.HeardMajority ∧ s.params.electionUpper * 2 < s.elapsed ∧ (isLeader s).1 = .ok true := by
  obtain ⟨⟨d, up⟩, fx, h, hp⟩ := Node.witness (c := node1) (n := Node.fresh conf3)
    [.start, .go (.tick 1000), .go .electionTimeout, .go (voteRespOf 2 1 true), .go (.tick (1000 + 25 * 24 * 3600000))]
    (fun n _ => match n.up with
      | some s => decide (s.role = .leader ∧ ¬s.HeardMajority ∧ s.params.electionUpper * 2 < s.elapsed ∧
          (isLeader s).1.toOption = some true)
      | none => false) (by decide +kernel)
  cases up with
  | none => cases hp
  | some s =>
    obtain ⟨h1, h2, h3, h4⟩ := of_decide_eq_true hp
    refine ⟨d, s, fx, h, h1, h2, h3, ?_⟩
    rcases hr : (isLeader s).1 with e | b
    · rw [hr] at h4; cases h4
    · rw [hr] at h4; cases h4; rfl

/-! ## C47: `replicate_log` reports acceptance -/

/-- What `is_leader` does to the server. -/
theorem isLeader_state (s : Srv) : ∃ e b, isLeader s = (.ok b, { s with elapsed := e }) := by
  unfold isLeader
  rw [bind_get]
  by_cases h : s.role = .leader ∧ 0 < s.peers.length ∧ s.params.electionUpper * 2 < s.elapsed
  · rw [if_pos h, bind_modify, bind_get]
    generalize hx : toI32 ((s.now : Int) - (quorumResp s : Nat)) = x
    refine ⟨x, if s.params.electionUpper * 2 < x then false else decide (s.role = .leader), ?_⟩
    by_cases h2 : s.params.electionUpper * 2 < x
    · rw [if_pos h2, if_pos h2]; rfl
    · rw [if_neg h2, if_neg h2]; rfl
  · rw [if_neg h]
    exact ⟨s.elapsed, decide (s.role = .leader), rfl⟩

/-- C47 fails: `replicate_log` returns false whenever it returns. -/
theorem replicate_log_false {s : Srv} {d : Nat} {b : Bool} (h : (replicateLog d s).1 = .ok b) : b = false := by
  unfold replicateLog at h
  obtain ⟨e, l, hl⟩ := isLeader_state s
  rw [run_bind_ok hl] at h
  cases l with
  | false => exact (Except.ok.inj h).symm
  | true =>
    rw [if_pos rfl, bind_get] at h
    generalize ({ s with elapsed := e } : Srv) = s1 at h
    rw [run_bind] at h
    rcases h1 : logAppend ⟨s1.term, .app d⟩ s1 with ⟨f | u, s2⟩
    · rw [h1] at h; cases h
    · rw [h1] at h
      simp only [] at h
      rw [run_bind] at h
      rcases h2 : requestAppendAll s2 with ⟨f | u, s3⟩
      · rw [h2] at h; cases h
      · rw [h2] at h; exact (Except.ok.inj h).symm

/-- In particular in a case where the entry is accepted. -/
theorem replicate_log_accepts_silently :
    ∃ d s fx, Hist node1 (Node.fresh conf3) [.electionTimeout, voteRespOf 2 1 true] fx ⟨d, some s⟩ ∧
      (replicateLog 7 s).1 = .ok false ∧ (replicateLog 7 s).2.log.ents = s.log.ents ++ [⟨1, .app 7⟩] := by
  obtain ⟨⟨d, up⟩, fx, h, hp⟩ := Node.witness (c := node1) (n := Node.fresh conf3)
    [.start, .go .electionTimeout, .go (voteRespOf 2 1 true)]
    (fun n _ => match n.up with
      | some s => decide ((replicateLog 7 s).1.toOption = some false ∧
          (replicateLog 7 s).2.log.ents = s.log.ents ++ [⟨1, .app 7⟩])
      | none => false) (by decide +kernel)
  cases up with
  | none => cases hp
  | some s =>
    obtain ⟨h1, h2⟩ := of_decide_eq_true hp
    refine ⟨d, s, fx, h, ?_, h2⟩
    rcases hr : (replicateLog 7 s).1 with e | b
    · rw [hr] at h1; cases h1
    · rw [hr] at h1; cases h1; rfl

/-- C47, `_partial`: what `replicate_log` does. If the server says that it leads, the entry is appended to its log once, at
its end, with its term; otherwise nothing is appended. Missing: the return value, which does not tell these cases apart, and
other threads between the question and the appending (the call takes no lock, raft_server.cxx 1080-1094). -/
theorem replicate_log_effect_partial (s : Srv) (d : Nat) :
    ((isLeader s).1 = .ok true ∧ s.role = .leader ∧ (replicateLog d s).2.log = s.log.append ⟨s.term, .app d⟩) ∨
    ((isLeader s).1 = .ok false ∧ (replicateLog d s).2.log = s.log) := by
  obtain ⟨e, l, hl⟩ := isLeader_state s
  unfold replicateLog
  rw [run_bind_ok hl]
  cases l with
  | false => exact .inr ⟨by rw [hl], rfl⟩
  | true =>
    have h1 : (isLeader s).1 = .ok true := by rw [hl]
    refine .inl ⟨h1, is_leader_role h1, ?_⟩
    rw [if_pos rfl, bind_get]
    generalize hs1 : ({ s with elapsed := e } : Srv) = s1
    have e1 : s1.log = s.log := by rw [← hs1]
    have e2 : s1.term = s.term := by rw [← hs1]
    have h2 : logAppend ⟨s1.term, .app d⟩ s1 = (.ok ⟨⟩, { s1 with
      log := s1.log.append ⟨s1.term, .app d⟩, trace := s1.trace ++ [.append ⟨s1.term, .app d⟩] }) := rfl
    rw [run_bind_ok h2, ← e1, ← e2]
    generalize hs2 : ({ s1 with
      log := s1.log.append ⟨s1.term, .app d⟩, trace := s1.trace ++ [.append ⟨s1.term, .app d⟩] } : Srv) = s2
    have e3 : s2.log = s1.log.append ⟨s1.term, .app d⟩ := by rw [← hs2]
    rw [← e3]
    exact pres_bind slo sameLog_requestAppendAll (fun _ => pres_pure slo _) s2

/-! ## C52: heartbeat back-off stays within bounds -/

theorem Params.hb_le_max (pr : Params) : pr.hbInterval ≤ pr.maxHb := by
  unfold Params.maxHb; omega

/-- The interval of a peer is between the configured one and its maximum, if the back-off is not negative. -/
def Peer.HbIn (pr : Params) (p : Peer) : Prop := 0 ≤ pr.rpcBackoff → pr.hbInterval ≤ p.hbInterval ∧ p.hbInterval ≤ pr.maxHb

instance : HbSlow Peer.HbIn where
  same _ h2 h := by unfold Peer.HbIn at h ⊢; rw [h2]; exact h
  base {pr p} h := by have := pr.hb_le_max; unfold Peer.HbIn; omega
  slow {pr p} h := by
    have := pr.hb_le_max
    have e : (slowDownHb pr p).hbInterval = min pr.maxHb (p.hbInterval + pr.rpcBackoff) := rfl
    unfold Peer.HbIn at h ⊢
    omega

theorem bootPeers_hb (id : Int) (pr : Params) : ∀ (cs : List SrvCfg) (ps : List Peer),
    (∀ p ∈ ps, p.hbInterval = pr.hbInterval) → ∀ p ∈ cs.foldl (bootPeer id pr) ps, p.hbInterval = pr.hbInterval
  | [], _, h => h
  | c :: cs, ps, h => bootPeers_hb id pr cs (bootPeer id pr ps c) (by
    unfold bootPeer
    split
    · exact h
    · intro p hp
      rcases List.mem_append.1 hp with hp | hp
      · exact h p hp
      · rw [List.mem_singleton.1 hp])

/-- C52, `_partial`: in every history the heartbeat interval of every peer is between the configured interval and the
maximum. Missing: negative values of `rpc_failure_backoff` (`hb_interval_falls` below). -/
theorem hb_interval_bounds_partial {c : Setup} (h0 : 0 ≤ c.params.rpcBackoff) {cfg : Config} {xs : List Input}
    {fx : List Eff} {d : Disk} {s : Srv} (h : Hist c (Node.fresh cfg) xs fx ⟨d, some s⟩) :
    (∀ p ∈ s.peers, c.params.hbInterval ≤ p.hbInterval ∧ p.hbInterval ≤ c.params.maxHb) ∧
    (∀ p, s.srvToJoin = some p → c.params.hbInterval ≤ p.hbInterval ∧ p.hbInterval ≤ c.params.maxHb) := by
  have key : ∀ {xs fx n}, Hist c (Node.fresh cfg) xs fx n → ∀ s, n.up = some s → 
      s.params = c.params ∧ HbOk Peer.HbIn s ∧ HbJoin Peer.HbIn s := by
    intro xs fx n h
    induction h with
    | nil => intro s hs; cases hs
    | @step n1 n2 xs fx es x h hs ih =>
      intro s2 hs2
      cases hs with
      | @run d s s' x hr =>
        cases hs2
        obtain ⟨i1, i2, i3⟩ := ih s rfl
        have h1 := sf_run (K := Peer.HbIn) x { s with trace := [] }
        rw [hr] at h1
        exact ⟨h1.params.trans i1, h1.hb i2, h1.join i3⟩
      | @survive d s s' x hr =>
        cases hs2
        obtain ⟨i1, i2, i3⟩ := ih s rfl
        have h1 := sf_run (K := Peer.HbIn) x { s with trace := [] }
        rw [hr] at h1
        exact ⟨h1.params.trans i1, h1.hb i2, h1.join i3⟩
      | crash hp => cases hs2
      | @boot d =>
        cases hs2
        refine ⟨rfl, fun p hp => ?_, fun p hp => by cases hp⟩
        exact HbKind.base (bootPeers_hb c.id c.params _ [] nofun p hp)
  obtain ⟨e, h1, h2⟩ := key h s rfl
  exact ⟨fun p hp => (e ▸ h1 p hp) h0, fun p hp => (e ▸ h2 p hp) h0⟩

/-- The hypotheses can be met, with an interval strictly between the bounds. -/
example : ∃ d s fx, Hist node1 (Node.fresh conf3) 
      [.electionTimeout, .peerErr { voteReqOf 1 1 0 0 with dst := 2 }] fx ⟨d, some s⟩ ∧
    0 ≤ node1.params.rpcBackoff ∧ node1.params.hbInterval = 75 ∧ node1.params.maxHb = 113 ∧
    ∃ p ∈ s.peers, p.id = 2 ∧ p.hbInterval = 100 := by
  obtain ⟨⟨d, up⟩, fx, h, hp⟩ := Node.witness (c := node1) (n := Node.fresh conf3)
    [.start, .go .electionTimeout, .go (.peerErr { voteReqOf 1 1 0 0 with dst := 2 })]
    (fun n _ => match n.up with
      | some s => decide (0 ≤ node1.params.rpcBackoff ∧ node1.params.hbInterval = 75 ∧ node1.params.maxHb = 113 ∧
          ∃ p ∈ s.peers, p.id = 2 ∧ p.hbInterval = 100)
      | none => false) (by decide +kernel)
  cases up with
  | none => cases hp
  | some s => exact ⟨d, s, fx, h, of_decide_eq_true hp⟩

/-- The interval of one server is the configured one. -/
def Peer.HbBase (i : Int) (pr : Params) (p : Peer) : Prop := p.id = i → p.hbInterval = pr.hbInterval

instance (i : Int) : HbKind (Peer.HbBase i) where
  same h1 h2 h hi := by rw [h2]; exact h (by unfold Peer.id at hi ⊢; rw [← h1]; exact hi)
  base h _ := h

/-- C52, second half: after an answer of a peer its interval is the configured one, whatever the answer says and whatever
the interval was. -/
theorem hb_interval_resets (s : Srv) (ty : MsgType) (r : Resp) :
    ∀ p ∈ ((Input.peerResp ty r).run s).2.peers, p.id = r.src → p.hbInterval = s.params.hbInterval := by
  let s1 := (rpcResult (.member r.src) ty true s).2
  have hs1 : rpcResult (.member r.src) ty true s = (.ok ⟨⟩, s1) := rfl
  have e : (Input.peerResp ty r).run s = handlePeerResp r s1 := run_bind_ok hs1
  have h1 : s1.params = s.params := rfl
  have h2 : HbOk (Peer.HbBase r.src) s1 := by
    intro p hp hi
    obtain ⟨q, hq, e1⟩ := List.mem_map.1 hp
    by_cases hc : (q.id == r.src) = true
    · rw [if_pos hc] at e1; rw [← e1]; rfl
    · rw [if_neg hc] at e1
      rw [e1] at hc
      exact absurd (beq_iff_eq.2 hi) hc
  rw [e]
  have h3 := sf_handlePeerResp (K := Peer.HbBase r.src) r s1
  intro p hp hi
  have := h3.hb h2 p hp hi
  rw [this, h3.params]
  rfl

/-- In the state of the example above, the answer of server 2 has this effect. -/
example : ∃ d s fx, Hist node1 (Node.fresh conf3)
      [.electionTimeout, .peerErr { voteReqOf 1 1 0 0 with dst := 2 }] fx ⟨d, some s⟩ ∧
    (∃ p ∈ s.peers, p.id = 2 ∧ p.hbInterval = 100) ∧
    ∃ p ∈ ((voteRespOf 2 1 false).run s).2.peers, p.id = 2 ∧ p.hbInterval = 75 := by
  obtain ⟨⟨d, up⟩, fx, h, hp⟩ := Node.witness (c := node1) (n := Node.fresh conf3)
    [.start, .go .electionTimeout, .go (.peerErr { voteReqOf 1 1 0 0 with dst := 2 })]
    (fun n _ => match n.up with
      | some s => decide ((∃ p ∈ s.peers, p.id = 2 ∧ p.hbInterval = 100) ∧
          ∃ p ∈ ((voteRespOf 2 1 false).run s).2.peers, p.id = 2 ∧ p.hbInterval = 75)
      | none => false) (by decide +kernel)
  cases up with
  | none => cases hp
  | some s => exact ⟨d, s, fx, h, of_decide_eq_true hp⟩

/-- C52 fails for a negative back-off, which `with_rpc_failure_backoff` accepts: the interval falls below the configured one
and even below zero. -/
theorem hb_interval_falls :
    ∃ d s fx, Hist { node1 with params := { rpcBackoff := -100 } } (Node.fresh conf3)
        [.electionTimeout, .peerErr { voteReqOf 1 1 0 0 with dst := 2 }] fx ⟨d, some s⟩ ∧
      ∃ p ∈ s.peers, p.hbInterval = -25 := by
  obtain ⟨⟨d, up⟩, fx, h, hp⟩ := Node.witness (c := { node1 with params := { rpcBackoff := -100 } }) (n := Node.fresh conf3)
    [.start, .go .electionTimeout, .go (.peerErr { voteReqOf 1 1 0 0 with dst := 2 })]
    (fun n _ => match n.up with
      | some s => decide (∃ p ∈ s.peers, p.hbInterval = -25)
      | none => false) (by decide +kernel)
  cases up with
  | none => cases hp
  | some s => exact ⟨d, s, fx, h, of_decide_eq_true hp⟩

end Cs.Raft
