import Verif.Cluster.CutVote
import Verif.Cluster.World

/-!
# A server that compacts its log keeps to the protocol: requests
-/

namespace Cs.Raft.Cut
open Cs Cs.Raft

variable {cs : List SrvCfg} {H : History} {i : Int} {pre : List Entry}

/-! ## Storing entries -/

theorem core_note (n : Nat) (e : Entry) : ∀ x ∈ noteFx n e, core x = true := by
  unfold noteFx; split <;> simp [core]
theorem core_roll (n : Nat) (e : Entry) : ∀ x ∈ rollFx n e, core x = true := by
  unfold rollFx; split <;> simp [core]
theorem core_append : ∀ (es : List Entry) (n : Nat), ∀ x ∈ appendFx n es, core x = true
  | [], _, x, h => by cases h
  | e :: es, n, x, h => by
    unfold appendFx at h
    rcases List.mem_append.1 h with h | h
    · rcases List.mem_cons.1 h with rfl | h
      · rfl
      · exact core_note n e x h
    · exact core_append es _ x h
theorem core_store (l : Log) (n : Nat) (es : List Entry) : ∀ x ∈ storeFx l n es, core x = true := by
  unfold storeFx
  split
  · intro x h; cases h
  · split
    · intro x h
      rcases List.mem_append.1 h with h | h
      · rcases List.mem_append.1 h with h | h
        · exact core_roll _ _ x h
        · rcases List.mem_cons.1 h with rfl | h
          · rfl
          · exact core_note _ _ x h
      · exact core_append _ _ x h
    · exact core_append _ _

theorem high_note (n : Nat) (e : Entry) : High pre (noteFx n e) := by
  intro k x h; unfold noteFx at h; split at h <;> simp at h
theorem high_roll (n : Nat) (e : Entry) : High pre (rollFx n e) := by
  intro k x h; unfold rollFx at h; split at h <;> simp at h
theorem high_append : ∀ (es : List Entry) (n : Nat), High pre (appendFx n es)
  | [], _ => High.nil
  | e :: es, n => by
    unfold appendFx
    exact .append (.append (a := [_]) (.one nofun) (high_note n e)) (high_append es _)
theorem high_store (l : Log) {n : Nat} (hn : pre.length < n) (es : List Entry) : High pre (storeFx l n es) := by
  unfold storeFx
  split
  · exact High.nil
  · split
    · refine .append (.append (high_roll _ _) (.append (a := [_]) ?_ (high_note _ _))) (high_append _ _)
      intro k x h
      have := List.mem_singleton.1 h
      cases this
      omega
    · exact high_append _ _

theorem take_cut (l : List Entry) {n : Nat} (h : pre.length ≤ n) : (pre ++ l).take n = pre ++ l.take (n - pre.length) := by
  rw [List.take_append, List.take_of_length_le h]

theorem store_path {s : Srv} {m : Req} (hst : s.log.start = pre.length + 1) (hs : Sent H i .appendReq m)
    (hcf : ∀ e ∈ m.entries, ConfOk cs e) (hr : s.role = .follower) (ht : m.term = s.term)
    (hle : pre.length ≤ m.lastIdx) (hlt : m.lastIdx < s.log.next)
    (hp : m.lastIdx = 0 ∨ ((pre ++ s.log.ents)[m.lastIdx - 1]?).map Entry.term = some m.lastTerm) :
    Path cs H i (abs pre s) (storeFx s.log (m.lastIdx + 1) m.entries)
        { abs pre s with log := pre ++ (s.log.store (m.lastIdx + 1) m.entries).ents } ∧
      Agree (pre ++ (s.log.store (m.lastIdx + 1) m.entries).ents) m m.entries.length ∧
      (s.log.store (m.lastIdx + 1) m.entries).start = pre.length + 1 ∧
      (∀ e ∈ pre ++ (s.log.store (m.lastIdx + 1) m.entries).ents, e ∈ pre ++ s.log.ents ∨ e ∈ m.entries) ∧
      (s.log.store (m.lastIdx + 1) m.entries = s.log ∨ (s.log.store (m.lastIdx + 1) m.entries).ents ≠ []) := by
  have hag := matchLen_agree s.log (m.lastIdx + 1) m.entries
  have hmle := matchLen_le s.log (m.lastIdx + 1) m.entries
  have hstop := matchLen_stop s.log (m.lastIdx + 1) m.entries
  unfold storeFx Log.store
  generalize matchLen s.log (m.lastIdx + 1) m.entries = j at hag hmle hstop
  have hn := next_cut hst
  have ha : Agree (pre ++ s.log.ents) m j := by
    refine ⟨?_, hp, ?_⟩
    · cases j with
      | zero => omega
      | succ j =>
        obtain ⟨x, _, h1, _⟩ := hag j (by omega)
        have := (Log.get?_lt h1).2
        omega
    · intro k hk
      obtain ⟨x, y, h1, h2, h3⟩ := hag k hk
      rw [get?_cut hst (by omega)] at h1
      rw [show m.lastIdx + 1 + k - 1 = m.lastIdx + k by omega] at h1
      rw [h1, h2]
      exact congrArg some h3
  by_cases hlen : m.entries.length ≤ j
  · rw [if_pos hlen]
    have : m.entries.drop j = [] := List.drop_eq_nil_of_le hlen
    rw [this]
    exact ⟨.nil _, ha.le hlen, hst, fun e he => .inl he, .inl rfl⟩
  rw [if_neg hlen]
  rcases hd : m.entries.drop j with _ | ⟨e, rest⟩
  · exact absurd (List.drop_eq_nil_iff.1 hd) hlen
  obtain ⟨he, hd'⟩ := drop_get hd
  have hres : s.log.replaceFrom (m.lastIdx + 1 + j) (e :: rest) =
      ⟨pre.length + 1, s.log.ents.take (m.lastIdx + j - pre.length) ++ (e :: rest)⟩ := by
    unfold Log.replaceFrom
    rw [hst, show m.lastIdx + 1 + j - (pre.length + 1) = m.lastIdx + j - pre.length by omega]
  rw [hres]
  have htk : pre ++ (s.log.ents.take (m.lastIdx + j - pre.length) ++ (e :: rest)) =
      (pre ++ s.log.ents).take (m.lastIdx + j) ++ (e :: rest) := by
    rw [take_cut _ (by omega), List.append_assoc]
  have hmem : ∀ x ∈ (pre ++ s.log.ents).take (m.lastIdx + j) ++ (e :: rest), x ∈ pre ++ s.log.ents ∨ x ∈ m.entries := by
    intro x hx
    rcases List.mem_append.1 hx with h | h
    · exact .inl (List.mem_of_mem_take h)
    · exact .inr (List.mem_of_mem_drop (i := j) (by rw [hd]; exact h))
  simp only []
  rw [htk]
  have hne : s.log.ents.take (m.lastIdx + j - pre.length) ++ (e :: rest) ≠ [] := by simp
  rcases hg : s.log.get? (m.lastIdx + 1 + j) with _ | x
  · have hnx : (pre ++ s.log.ents).length = m.lastIdx + j := by
      have h1 := ha.1
      rcases Nat.lt_or_ge (m.lastIdx + j) (pre ++ s.log.ents).length with h | h
      · obtain ⟨y, hy⟩ := Log.get?_some (l := s.log) (i := m.lastIdx + 1 + j) (by omega) (by omega)
        rw [hy] at hg; cases hg
      · omega
    rw [← hnx, List.take_of_length_le (Nat.le_refl _)] at hmem ⊢
    obtain ⟨p, a⟩ := appendFx_path (cs := cs) hs hcf (e :: rest) j (abs pre s) (m.lastIdx + 1 + j) hr ht ha hnx hd
    refine ⟨?_, a, trivial, hmem, .inr ?_⟩
    · exact p
    · rw [hnx]; exact hne
  · have hx : (pre ++ s.log.ents)[m.lastIdx + j]? = some x := by
      rw [get?_cut hst (by omega), show m.lastIdx + 1 + j - 1 = m.lastIdx + j by omega] at hg
      exact hg
    have hxe : x.term ≠ e.term := hstop x e hg he
    have hlt := (Log.get?_lt hg).2
    obtain ⟨p, a⟩ := appendFx_path (cs := cs) hs hcf rest (j + 1)
      { abs pre s with log := (pre ++ s.log.ents).take (m.lastIdx + j) ++ [e] } (m.lastIdx + 1 + j + 1) hr ht (ha.snoc he)
      (by
        show ((pre ++ s.log.ents).take (m.lastIdx + j) ++ [e]).length = _
        rw [List.length_append, List.length_take, List.length_singleton]; omega) hd'
    simp only [List.append_assoc, List.singleton_append] at p a
    refine ⟨?_, a, trivial, hmem, .inr hne⟩
    simp only []
    rw [List.append_assoc]
    refine (rollFx_path _ _ x).append ?_
    have hw := Act.write (S := cs.map SrvCfg.id) (H := H) (i := i) (c := abs pre s) hs ht hr ha he hx hxe
    rw [show m.lastIdx + j + 1 = m.lastIdx + 1 + j by omega] at hw
    exact .act hw (hcf e (List.mem_of_getElem? he)) ((noteFx_path _ _ e).append p)

theorem skipSame_below {e : Entry} {es : List Entry} {s : Srv} {k : Nat} (h : k < s.log.start) :
    skipSame k (e :: es) s = (.error .thrown, s) := by
  unfold skipSame
  have hn : k < s.log.next := by unfold Log.next; omega
  rw [bind_get, if_pos hn]
  unfold termAt
  have : s.log.get? k = none := by unfold Log.get?; rw [if_pos h]
  rw [run_bind, bind_get, this]
  rfl

/-- Storing the entries of a request: an exception if they begin before the log, and otherwise what the protocol allows. -/
theorem storing {s : Srv} {m : Req} (g : Good cs H i pre s) (hs : Sent H i .appendReq m)
    (hcf : ∀ e ∈ m.entries, ConfOk cs e) (hr : s.role = .follower) (ht : m.term = s.term)
    (hp : m.lastIdx = 0 ∨ (m.lastIdx < s.log.next ∧ termFor s m.lastIdx = some m.lastTerm)) :
    storeEntries m s = (.error .thrown, s) ∨ ∃ cc l2 fx, storeEntries m s = (.ok ⟨⟩, { s with
        log := l2, configChanging := cc, trace := s.trace ++ fx }) ∧
      Path cs H i (abs pre s) fx { abs pre s with log := pre ++ l2.ents } ∧ Agree (pre ++ l2.ents) m m.entries.length ∧
      l2.start = pre.length + 1 ∧ (∀ e ∈ pre ++ l2.ents, e ∈ pre ++ s.log.ents ∨ e ∈ m.entries) ∧
      CutOk pre l2 s.smSnap s.params ∧ Dull fx ∧ (∀ e ∈ fx, core e = true) ∧ High pre fx := by
  have hst := g.start
  have hn := next_cut hst
  by_cases main : pre.length ≤ m.lastIdx ∧ m.lastIdx < s.log.next ∧
      (m.lastIdx = 0 ∨ ((pre ++ s.log.ents)[m.lastIdx - 1]?).map Entry.term = some m.lastTerm)
  · obtain ⟨h1, h2, h3⟩ := main
    obtain ⟨p, a, st, mem, hf⟩ := store_path (cs := cs) hst hs hcf hr ht h1 h2 h3
    obtain ⟨cc, hse⟩ := run_storeEntries m s (by omega) h2
    refine .inr ⟨cc, _, _, hse, p, a, st, mem, ⟨?_, ?_, g.cut.kept⟩, dull_store _ _ _, core_store _ _ _,
      high_store _ (by omega) _⟩
    · rcases hf with hf | hf
      · rw [hf]; exact g.cut.full
      · exact .inr hf
    · rw [st, ← hst]; exact g.cut.snap
  by_cases h0 : m.lastIdx = 0
  · by_cases hpre : pre.length = 0
    · exact absurd ⟨by omega, by omega, .inl h0⟩ main
    · rcases he : m.entries with _ | ⟨e, es⟩
      · right
        have hse : storeEntries m s = (.ok ⟨⟩, s) := by
          unfold storeEntries
          rw [he]
          rfl
        refine ⟨s.configChanging, s.log, [], by rw [hse, List.append_nil], .nil _, ⟨?_, .inl h0, ?_⟩, hst,
          fun e he => .inl he, g.cut, Dull.nil, nofun, High.nil⟩
        · show m.lastIdx + 0 ≤ _; omega
        · intro j hj; exact absurd hj (Nat.not_lt_zero _)
      · left
        unfold storeEntries
        rw [he, h0]
        rw [run_bind_err (skipSame_below (s := s) (k := 0 + 1) (by omega))]
  · obtain ⟨h1, h2⟩ := hp.resolve_left h0
    rcases termFor_cut hst g.cut h2 with ⟨h, _⟩ | ⟨h3, h4⟩
    · exact absurd h h0
    · exact absurd ⟨by omega, h1, .inr h4⟩ main

/-! ## Append requests -/

/-- The server goes along allowed effects and may then give its answer. -/
def Answers (cs : List SrvCfg) (H : History) (i : Int) (pre : List Entry) (s : Srv) (x : Except Fault Resp × Srv) : Prop :=
  T cs H i pre s x.2 ∧ ∀ r, x.1 = .ok r → Act (cs.map SrvCfg.id) H i (abs pre x.2) (.reply r) (abs pre x.2)

theorem follows_T {s : Srv} {m : Req} (g : Good cs H i pre s) (hs : Sent H i .appendReq m) (ht : m.term = s.term) :
    T cs H i pre s s.follows := by
  unfold Srv.follows
  split
  · rename_i hc
    have hk : (s.peers.map disableHb).map Peer.key = s.peers.map Peer.key := by rw [List.map_map]; rfl
    have g1 : Good cs H i pre s.stepDown := by
      refine ⟨g.id, g.start, ?_, g.servers, g.catching, g.steps, rfl, g.cut, g.conf, g.votes, ?_⟩
      · exact (ids_of_keys' hk).trans g.ids
      · show ∀ k ∈ (s.peers.map disableHb).map Peer.key, _
        rw [hk]; exact g.matched
    exact ⟨g1, [.event .becomeFollower], rfl,
      .quiet (.stepDown (c := abs pre s) hs ht hc) rfl (.one (.other trivial) trivial), .one nofun⟩
  · exact Still.T (es := []) ⟨rfl, rfl, rfl, rfl, rfl, rfl, rfl, rfl, rfl, rfl, rfl, rfl, rfl, fun h => h, rfl, rfl⟩
      (List.append_nil _).symm (by simp) g

theorem died_T {s : Srv} (g : Good cs H i pre s) : T cs H i pre s { s with trace := s.trace ++ [.exit (-1)] } :=
  Still.T (es := [.exit (-1)]) ⟨rfl, rfl, rfl, rfl, rfl, rfl, rfl, rfl, rfl, rfl, rfl, rfl, rfl, fun h => h, rfl, rfl⟩
    rfl (by intro x hx; rw [List.mem_singleton.1 hx]; exact fun _ => ⟨trivial, trivial⟩) g

theorem handleAppendEntries_T {s : Srv} {m : Req} (g : Good cs H i pre s) (hs : Sent H i .appendReq m)
    (hc : ∀ e ∈ m.entries, ConfOk cs e) (hle : m.term ≤ s.term) : Answers cs H i pre s (handleAppendEntries m s) := by
  unfold handleAppendEntries
  by_cases ht : m.term = s.term
  · by_cases hl : s.role = .leader
    · rw [run_bind_err (run_hearLeader_lead ht hl)]; exact ⟨died_T g, fun _ h => nomatch h⟩
    rw [run_bind_ok (run_hearLeader_eq ht hl), bind_get]
    have t1 := follows_T g hs ht
    have hrole := follows_role hl
    have hterm := follows_term s
    generalize s.follows = s1 at t1 hrole hterm
    rw [← hterm] at ht
    rcases run_logOkay m s1 with ⟨hok, h⟩ | ⟨_, h⟩ | ⟨_, h⟩
    · rw [run_bind_ok h, if_neg (by rw [ht]; simp)]
      rcases storing (cs := cs) t1.1 hs hc hrole ht hok with hse | ⟨cc, l2, fx, hse, p, a, st, mem, hcut, _, hcore, hhigh⟩
      · rw [run_bind_err hse]; exact ⟨t1, fun _ h => nomatch h⟩
      rw [run_bind_ok hse, bind_modify]
      generalize hs2 : ({ s1 with log := l2, configChanging := cc, leader := m.src, trace := s1.trace ++ fx } : Srv) = s2
      have hab : abs pre s2 = { abs pre s1 with log := pre ++ l2.ents } := by rw [← hs2]; rfl
      have t2 : T cs H i pre s1 s2 := by
        refine T.of ?_ (es := fx) (by rw [← hs2]) hcore (by rw [hab]; exact p) hhigh
        rw [← hs2]
        have g1 := t1.1
        refine ⟨g1.id, st, g1.ids, g1.servers, g1.catching, g1.steps, g1.join, hcut, ?_, g1.votes, g1.matched⟩
        intro e he
        exact (mem e he).elim (g1.conf e) (hc e)
      have e2 : s2.role = .follower ∧ s2.term = s1.term ∧ s2.log.ents = l2.ents := by
        rw [← hs2]; exact ⟨hrole, rfl, rfl⟩
      rw [run_bind_ok (run_commit (by rw [e2.1]; nofun) _)]
      have t3 : T cs H i pre s2 (s2.advanced m.commitIdx) := by
        unfold Srv.advanced
        split
        · rename_i hq
          have g2 := t2.1
          exact ⟨⟨g2.id, g2.start, g2.ids, g2.servers, g2.catching, g2.steps, g2.join, g2.cut, g2.conf, g2.votes,
            g2.matched⟩, [.advance m.commitIdx], rfl,
            .one (.follow (c := abs pre s2) hq hs (ht.trans e2.2.1.symm) (by
              show Agree (pre ++ s2.log.ents) _ _
              rw [e2.2.2]; exact a)) trivial, .one nofun⟩
        · exact T.refl t2.1
      refine ⟨(t1.trans t2).trans t3, ?_⟩
      intro r hr
      have hr : _ = r := Except.ok.inj hr
      have e3 : (s2.advanced m.commitIdx).term = s1.term ∧ (s2.advanced m.commitIdx).log.ents = l2.ents := by
        unfold Srv.advanced
        split <;> exact ⟨e2.2.1, e2.2.2⟩
      rw [← hr]
      refine .stored rfl rfl e3.1.symm (.inl ⟨m, hs, ht.trans e3.1.symm, ?_, rfl⟩)
      show Agree (pre ++ (s2.advanced m.commitIdx).log.ents) _ _
      rw [e3.2]; exact a
    · rw [run_bind_ok h, if_pos (.inr rfl)]
      refine ⟨t1, fun r hr => ?_⟩
      rw [← Except.ok.inj hr]
      exact refusal_ok _ rfl
    · rw [run_bind_err h]
      exact ⟨t1.trans (died_T t1.1), fun _ h => nomatch h⟩
  · rw [run_bind_ok (run_hearLeader_ne ht), bind_get]
    have hlt : m.term < s.term := by omega
    have hx : ∀ b, logOkay m s = (.ok b, s) → Answers cs H i pre s ((do
        let ok ← logOkay m
        if m.term < s.term ∨ ok = false then
          pure { type := .appendResp, term := s.term, src := s.id, dst := m.src, nextIdx := s.log.next }
        else do
          storeEntries m
          modify fun s => { s with leader := m.src }
          commit m.commitIdx
          pure { type := .appendResp, term := s.term, src := s.id, dst := m.src,
                 nextIdx := m.lastIdx + m.entries.length + 1, accepted := true } : R Resp) s) := by
      intro b h
      rw [run_bind_ok h, if_pos (.inl hlt)]
      refine ⟨T.refl g, fun r hr => ?_⟩
      rw [← Except.ok.inj hr]
      exact refusal_ok _ rfl
    rcases run_logOkay m s with ⟨_, h⟩ | ⟨_, h⟩ | ⟨_, h⟩
    · exact hx _ h
    · exact hx _ h
    · rw [run_bind_err h]; exact ⟨died_T g, fun _ h => nomatch h⟩

/-! ## Vote requests -/

theorem upToDate_cut {l : Log} {m : Req} (hl : l.start = pre.length + 1) (hf : pre = [] ∨ l.ents ≠ [])
    (h : upToDate m l = true) :
    lastTermOf (pre ++ l.ents) < m.lastTerm ∨
      m.lastTerm = lastTermOf (pre ++ l.ents) ∧ (pre ++ l.ents).length ≤ m.lastIdx := by
  unfold upToDate at h
  rw [Bool.or_eq_true, Bool.and_eq_true, decide_eq_true_eq, decide_eq_true_eq, decide_eq_true_eq] at h
  have hn := next_cut hl
  have e : l.lastTerm = lastTermOf (pre ++ l.ents) := by
    unfold Log.lastTerm lastTermOf
    rcases hf with rfl | hf
    · rfl
    · obtain ⟨x, hx⟩ : ∃ x, l.ents.getLast? = some x := by
        cases h : l.ents.getLast? with
        | none => exact absurd (List.getLast?_eq_none_iff.1 h) hf
        | some x => exact ⟨x, rfl⟩
      rw [List.getLast?_append, hx]; rfl
  rw [e] at h
  rcases h with h | ⟨h1, h2⟩
  · exact .inl h
  · exact .inr ⟨h1, by omega⟩

variable [hm : Member cs i]
include hm

theorem handleVoteReq_T {s : Srv} {m : Req} (g : Good cs H i pre s) (hs : Sent H i .voteReq m) (hsrc : m.src ≠ -1) :
    Answers cs H i pre s (handleVoteReq m s) := by
  rw [run_handleVoteReq]
  split
  · rename_i h
    obtain ⟨h1, h2, h3⟩ := h
    refine ⟨⟨⟨g.id, g.start, g.ids, g.servers, g.catching, g.steps, g.join, g.cut, g.conf, ?_, g.matched⟩,
      [.saveState s.term m.src], rfl, .one (.grant (c := abs pre s) hs h1 h3 (upToDate_cut g.start g.cut.full h2)) trivial, .one nofun⟩, ?_⟩
    · intro hec
      obtain ⟨V, v1, v2, v3, v4⟩ := g.votes hec
      refine ⟨V, v1, v2, v3, fun v hv => ⟨(v4 v hv).1, ?_⟩⟩
      rcases (v4 v hv).2 with ⟨a, b⟩ | h
      · refine .inl ⟨a, ?_⟩
        rcases h3 with h3 | h3
        · exact h3 ▸ b
        · exact absurd (b.symm.trans h3) hm.ne
      · exact .inr h
    · intro r hr
      rw [← Except.ok.inj hr]
      exact .voted rfl rfl rfl rfl hsrc
  · refine ⟨T.refl g, fun r hr => ?_⟩
    rw [← Except.ok.inj hr]
    exact refusal_ok _ rfl

omit hm in
theorem handlePrevoteReq_T {s : Srv} {m : Req} (g : Good cs H i pre s) : Answers cs H i pre s (handlePrevoteReq m s) := by
  unfold handlePrevoteReq
  rw [bind_get]
  split
  · refine ⟨T.refl g, fun r hr => ?_⟩
    rw [← Except.ok.inj hr]
    exact .other (fun _ => ⟨nofun, nofun⟩)
  · refine ⟨T.refl g, fun r hr => ?_⟩
    rw [← Except.ok.inj hr]
    exact refusal_ok _ rfl

/-! ## Client requests -/

theorem handleCliReq_T {s : Srv} {m : Req} (g : Good cs H i pre s) (hc : ∀ e ∈ m.entries, ConfOk cs e) :
    Answers cs H i pre s (handleCliReq m s) := by
  unfold handleCliReq
  obtain ⟨b, el, hb, hlead⟩ := isLeader_run s
  rw [run_bind_ok hb, bind_get]
  have st : Still s { s with elapsed := el } :=
    ⟨rfl, rfl, rfl, rfl, rfl, rfl, rfl, rfl, rfl, rfl, rfl, rfl, rfl, fun h => h, rfl, rfl⟩
  have t1 : T cs H i pre s { s with elapsed := el } := st.T (es := []) (List.append_nil _).symm (by simp) g
  have hr1 : b = true → ({ s with elapsed := el } : Srv).role = .leader := hlead
  generalize ({ s with elapsed := el } : Srv) = s1 at t1 hr1
  split
  · refine ⟨t1, fun r hr => ?_⟩
    rw [← Except.ok.inj hr]
    exact refusal_ok _ rfl
  split
  · refine ⟨t1, fun r hr => ?_⟩
    rw [← Except.ok.inj hr]
    exact refusal_ok _ rfl
  · rename_i hb2
    have hlead1 := hr1 (by simpa using hb2)
    have h2 := ql_appendClient m.entries hc s1 t1.1 hlead1
    rw [run_bind]
    rcases ha : appendClient m.entries s1 with ⟨e | u, s2⟩
    · rw [ha] at h2
      exact ⟨t1.trans h2.1, fun _ h => nomatch h⟩
    rw [ha] at h2
    obtain ⟨t2, r2, e2⟩ := h2
    have h3 := ql_requestAppendAll s2 t2.1 r2
    show Answers cs H i pre s ((requestAppendAll >>= fun _ => do
      let s' ← get
      pure { type := .appendResp, term := s1.term, src := s1.id, dst := s1.leader, nextIdx := s'.log.next,
             accepted := true } : R Resp) s2)
    rw [run_bind]
    rcases hq : requestAppendAll s2 with ⟨e | u, s3⟩
    · rw [hq] at h3
      exact ⟨(t1.trans t2).trans h3.1, fun _ h => nomatch h⟩
    rw [hq] at h3
    obtain ⟨t3, r3, e3⟩ := h3
    refine ⟨(t1.trans t2).trans t3, fun r hr => ?_⟩
    rw [← Except.ok.inj hr]
    exact .stored rfl rfl (e3.trans e2).symm (.inr ⟨r3, next_cut t3.1.start⟩)

/-! ## All requests -/

omit hm in
theorem heard_T {s : Srv} (m : Req) (g : Good cs H i pre s) : T cs H i pre s (s.heard m) := by
  have hst : (if 0 < s.stepsToDown then 2 else s.stepsToDown) = s.stepsToDown := if_neg (by rw [g.steps]; decide)
  unfold Srv.heard
  rw [hst]
  by_cases h1 : m.type = .appendReq ∨ m.type = .voteReq ∨ m.type = .snpReq
  · rw [if_pos h1]
    by_cases h : s.term < m.term
    · rw [if_pos h]
      exact newTerm_T g h
    · rw [if_neg h]
      exact T.refl g
  · rw [if_neg h1]
    exact T.refl g

omit hm in
theorem T.answers {s s1 : Srv} {x : Except Fault Resp × Srv} (h1 : T cs H i pre s s1) (h2 : Answers cs H i pre s1 x) :
    Answers cs H i pre s x := ⟨h1.trans h2.1, h2.2⟩

theorem processReq_T {s : Srv} {m : Req} (g : Good cs H i pre s) (hm' : ReqOk cs H i m) :
    Answers cs H i pre s (processReq m s) := by
  rw [run_processReq]
  have t := heard_T m g
  rcases hm' with ⟨hs, hc⟩ | ⟨hs, hsrc⟩ | hp | ⟨hp, hc⟩
  · have hty := hs.2.2
    have hle : m.term ≤ (s.heard m).term := by rw [heard_term (.inl hty)]; omega
    have : dispatch m (s.heard m) = handleAppendEntries m (s.heard m) := by unfold dispatch; rw [hty]
    rw [this]
    exact t.answers (handleAppendEntries_T t.1 hs hc hle)
  · have hty := hs.2.2
    have : dispatch m (s.heard m) = handleVoteReq m (s.heard m) := by unfold dispatch; rw [hty]
    rw [this]
    exact t.answers (handleVoteReq_T t.1 hs hsrc)
  · have : dispatch m (s.heard m) = handlePrevoteReq m (s.heard m) := by unfold dispatch handleExtended; rw [hp]
    rw [this]
    exact t.answers (handlePrevoteReq_T t.1)
  · have : dispatch m (s.heard m) = handleCliReq m (s.heard m) := by unfold dispatch; rw [hp]
    rw [this]
    exact t.answers (handleCliReq_T t.1 hc)

theorem req_T {s : Srv} {m : Req} (g : Good cs H i pre s) (h : ReqOk cs H i m) : T cs H i pre s ((Input.req m).run s).2 := by
  have hp := processReq_T g h
  show T cs H i pre s ((processReq m >>= fun resp => emit (.reply resp)) s).2
  rw [run_bind]
  rcases hc : processReq m s with ⟨e | r, s1⟩
  · rw [hc] at hp; exact hp.1
  · rw [hc] at hp
    refine hp.1.trans ?_
    show T cs H i pre s1 { s1 with trace := s1.trace ++ [.reply r] }
    exact ⟨Still.good (s := s1)
      ⟨rfl, rfl, rfl, rfl, rfl, rfl, rfl, rfl, rfl, rfl, rfl, rfl, rfl, fun h => h, rfl, rfl⟩ hp.1.1, [.reply r], rfl,
      .one (hp.2 r rfl) trivial, .one nofun⟩

end Cs.Raft.Cut
