import Verif.Cluster.LocalVote
import Verif.Cluster.Logs

/-!
# A server keeps to the protocol: requests
-/

namespace Cs.Raft
open Cs

variable {cs : List SrvCfg} {H : History} {i : Int}

/-! ## Storing entries -/

theorem Agree.le {l : List Entry} {m : Req} {k j : Nat} (h : Agree l m k) (hj : j ≤ k) : Agree l m j :=
  ⟨by have := h.1; omega, h.2.1, fun n hn => h.2.2 n (by omega)⟩

/-- The next entry of the request is put behind the entries that agree. -/
theorem Agree.snoc {l : List Entry} {m : Req} {k : Nat} {e : Entry} (h : Agree l m k) (he : m.entries[k]? = some e) :
    Agree (l.take (m.lastIdx + k) ++ [e]) m (k + 1) := by
  have hl := h.1
  have hlen : (l.take (m.lastIdx + k)).length = m.lastIdx + k := by rw [List.length_take]; omega
  refine ⟨?_, ?_, ?_⟩
  · rw [List.length_append, hlen, List.length_singleton]; omega
  · rcases h.2.1 with h0 | h0
    · exact .inl h0
    · by_cases hz : m.lastIdx = 0
      · exact .inl hz
      · right
        rw [List.getElem?_append_left (by omega), List.getElem?_take_of_lt (by omega)]
        exact h0
  · intro j hj
    rcases Nat.lt_or_ge j k with hjk | hjk
    · rw [List.getElem?_append_left (by omega), List.getElem?_take_of_lt (by omega)]
      exact h.2.2 j hjk
    · have : j = k := by omega
      subst this
      rw [List.getElem?_append_right (by omega), hlen, he]
      simp

theorem noteFx_path (c : PS) (n : Nat) (e : Entry) : Path cs H i c (noteFx n e) c := by
  unfold noteFx
  split
  · exact .one (.other trivial) trivial
  · exact .nil c

theorem rollFx_path (c : PS) (n : Nat) (e : Entry) : Path cs H i c (rollFx n e) c := by
  unfold rollFx
  split
  · exact .one (.other trivial) trivial
  · exact .nil c

theorem drop_get {l rest : List Entry} {k : Nat} {e : Entry} (h : l.drop k = e :: rest) :
    l[k]? = some e ∧ l.drop (k + 1) = rest := by
  have h1 : (l.drop k)[0]? = some e := by rw [h]; rfl
  rw [List.getElem?_drop] at h1
  refine ⟨h1, ?_⟩
  have : (l.drop k).drop 1 = rest := by rw [h]; rfl
  rwa [List.drop_drop] at this

theorem appendFx_path {m : Req} (hs : Sent H i .appendReq m) (hcf : ∀ e ∈ m.entries, ConfOk cs e) : ∀ (rest : List Entry) (k : Nat) (c : PS) (n : Nat),
    c.role = .follower → m.term = c.term → Agree c.log m k → c.log.length = m.lastIdx + k → m.entries.drop k = rest →
    Path cs H i c (appendFx n rest) { c with log := c.log ++ rest } ∧ Agree (c.log ++ rest) m m.entries.length
  | [], k, c, n, _, _, ha, hl, hd => by
    have hk : m.entries.length ≤ k := List.drop_eq_nil_iff.1 hd
    rw [List.append_nil]
    exact ⟨.nil c, ha.le hk⟩
  | e :: rest, k, c, n, hr, ht, ha, hl, hd => by
    obtain ⟨he, hd'⟩ := drop_get hd
    have hsn := ha.snoc he
    rw [← hl, List.take_of_length_le (Nat.le_refl _)] at hsn
    obtain ⟨p, a⟩ := appendFx_path hs hcf rest (k + 1) { c with log := c.log ++ [e] } (n + 1) hr ht hsn
      (by show (c.log ++ [e]).length = _; rw [List.length_append, hl]; rfl) hd'
    simp only [List.append_assoc, List.singleton_append] at p a
    refine ⟨?_, a⟩
    unfold appendFx
    rw [List.cons_append]
    exact .act (.append hs ht hr ha he hl) (hcf e (List.mem_of_getElem? he)) ((noteFx_path _ n e).append p)

theorem store_path {s : Srv} {m : Req} (hst : s.log.start = 1) (hs : Sent H i .appendReq m)
    (hcf : ∀ e ∈ m.entries, ConfOk cs e) (hr : s.role = .follower)
    (ht : m.term = s.term)
    (hp : m.lastIdx = 0 ∨ (m.lastIdx < s.log.next ∧ termFor s m.lastIdx = some m.lastTerm)) :
    Path cs H i (abs s) (storeFx s.log (m.lastIdx + 1) m.entries)
        { abs s with log := (s.log.store (m.lastIdx + 1) m.entries).ents } ∧
      Agree (s.log.store (m.lastIdx + 1) m.entries).ents m m.entries.length ∧
      (s.log.store (m.lastIdx + 1) m.entries).start = 1 ∧
      ∀ e ∈ (s.log.store (m.lastIdx + 1) m.entries).ents, e ∈ s.log.ents ∨ e ∈ m.entries := by
  have hag := matchLen_agree s.log (m.lastIdx + 1) m.entries
  have hle := matchLen_le s.log (m.lastIdx + 1) m.entries
  have hstop := matchLen_stop s.log (m.lastIdx + 1) m.entries
  unfold storeFx Log.store
  generalize matchLen s.log (m.lastIdx + 1) m.entries = j at hag hle hstop
  have hn := next_one hst
  have ha : Agree s.log.ents m j := by
    refine ⟨?_, ?_, ?_⟩
    · cases j with
      | zero =>
        rcases hp with h | h
        · omega
        · have := h.1; omega
      | succ j =>
        obtain ⟨x, _, h1, _⟩ := hag j (by omega)
        have := (Log.get?_lt h1).2
        omega
    · rcases hp with h | ⟨_, h⟩
      · exact .inl h
      · rcases termFor_one hst h with ⟨h, _⟩ | ⟨_, h⟩
        · exact .inl h
        · exact .inr h
    · intro k hk
      obtain ⟨x, y, h1, h2, h3⟩ := hag k hk
      rw [get?_one hst (by omega)] at h1
      rw [show m.lastIdx + 1 + k - 1 = m.lastIdx + k by omega] at h1
      rw [h1, h2]
      exact congrArg some h3
  by_cases hlen : m.entries.length ≤ j
  · rw [if_pos hlen]
    have : m.entries.drop j = [] := List.drop_eq_nil_of_le hlen
    rw [this]
    exact ⟨.nil _, ha.le hlen, hst, fun e he => .inl he⟩
  rw [if_neg hlen]
  rcases hd : m.entries.drop j with _ | ⟨e, rest⟩
  · exact absurd (List.drop_eq_nil_iff.1 hd) hlen
  obtain ⟨he, hd'⟩ := drop_get hd
  have hres : s.log.replaceFrom (m.lastIdx + 1 + j) (e :: rest) =
      ⟨1, s.log.ents.take (m.lastIdx + j) ++ (e :: rest)⟩ := by
    unfold Log.replaceFrom
    rw [hst, show m.lastIdx + 1 + j - 1 = m.lastIdx + j by omega]
  rw [hres]
  have hmem : ∀ x ∈ s.log.ents.take (m.lastIdx + j) ++ (e :: rest), x ∈ s.log.ents ∨ x ∈ m.entries := by
    intro x hx
    rcases List.mem_append.1 hx with h | h
    · exact .inl (List.mem_of_mem_take h)
    · exact .inr (List.mem_of_mem_drop (i := j) (by rw [hd]; exact h))
  simp only []
  rcases hg : s.log.get? (m.lastIdx + 1 + j) with _ | x
  · have hnx : s.log.ents.length = m.lastIdx + j := by
      have h1 := ha.1
      rcases Nat.lt_or_ge (m.lastIdx + j) s.log.ents.length with h | h
      · obtain ⟨y, hy⟩ := Log.get?_some (l := s.log) (i := m.lastIdx + 1 + j) (by omega) (by omega)
        rw [hy] at hg; cases hg
      · omega
    rw [← hnx, List.take_of_length_le (Nat.le_refl _)]
    rw [← hnx, List.take_of_length_le (Nat.le_refl _)] at hmem
    obtain ⟨p, a⟩ := appendFx_path (cs := cs) hs hcf (e :: rest) j (abs s) (m.lastIdx + 1 + j) hr ht ha hnx hd
    exact ⟨p, a, trivial, hmem⟩
  · have hx : s.log.ents[m.lastIdx + j]? = some x := by
      rw [get?_one hst (by omega), show m.lastIdx + 1 + j - 1 = m.lastIdx + j by omega] at hg
      exact hg
    have hne : x.term ≠ e.term := hstop x e hg he
    have hlt := (Log.get?_lt hg).2
    obtain ⟨p, a⟩ := appendFx_path (cs := cs) hs hcf rest (j + 1)
      { abs s with log := s.log.ents.take (m.lastIdx + j) ++ [e] } (m.lastIdx + 1 + j + 1) hr ht (ha.snoc he)
      (by
        show (s.log.ents.take (m.lastIdx + j) ++ [e]).length = _
        rw [List.length_append, List.length_take, List.length_singleton]; omega) hd'
    simp only [List.append_assoc, List.singleton_append] at p a
    refine ⟨?_, a, trivial, hmem⟩
    simp only []
    rw [List.append_assoc]
    refine (rollFx_path _ _ x).append ?_
    have hw := Act.write (S := cs.map SrvCfg.id) (H := H) (i := i) (c := abs s) hs ht hr ha he hx hne
    rw [show m.lastIdx + j + 1 = m.lastIdx + 1 + j by omega] at hw
    exact .act hw (hcf e (List.mem_of_getElem? he)) ((noteFx_path _ _ e).append p)

/-! ## Append requests -/

/-- The server goes along allowed effects and may then give its answer. -/
def Answers (cs : List SrvCfg) (H : History) (i : Int) (s : Srv) (x : Except Fault Resp × Srv) : Prop :=
  T cs H i s x.2 ∧ ∀ r, x.1 = .ok r → Act (cs.map SrvCfg.id) H i (abs x.2) (.reply r) (abs x.2)

theorem follows_T {s : Srv} {m : Req} (g : Good cs H i s) (hs : Sent H i .appendReq m) (ht : m.term = s.term) :
    T cs H i s s.follows := by
  unfold Srv.follows
  split
  · rename_i hc
    have hk : (s.peers.map disableHb).map Peer.key = s.peers.map Peer.key := by rw [List.map_map]; rfl
    have g1 : Good cs H i s.stepDown := by
      refine ⟨g.id, g.start, ?_, g.servers, g.catching, g.steps, rfl, g.dist, g.conf, g.votes, ?_⟩
      · exact (ids_of_keys' hk).trans g.ids
      · show ∀ k ∈ (s.peers.map disableHb).map Peer.key, _
        rw [hk]; exact g.matched
    exact ⟨g1, [.event .becomeFollower], rfl,
      .quiet (.stepDown (c := abs s) hs ht hc) rfl (.one (.other trivial) trivial)⟩
  · exact Still.T (es := []) ⟨rfl, rfl, rfl, rfl, rfl, rfl, rfl, rfl, rfl, rfl, rfl, rfl, rfl, fun h => h, rfl⟩
      (List.append_nil _).symm (by simp) g

theorem died_T {s : Srv} (g : Good cs H i s) : T cs H i s { s with trace := s.trace ++ [.exit (-1)] } :=
  Still.T (es := [.exit (-1)]) ⟨rfl, rfl, rfl, rfl, rfl, rfl, rfl, rfl, rfl, rfl, rfl, rfl, rfl, fun h => h, rfl⟩
    rfl (by intro x hx; rw [List.mem_singleton.1 hx]; exact ⟨trivial, trivial⟩) g

theorem refusal_ok (c : PS) {r : Resp} (h : r.accepted = false) : Act (cs.map SrvCfg.id) H i c (.reply r) c :=
  .other (show r.accepted = true → _ by rw [h]; intro h; cases h)

theorem handleAppendEntries_T {s : Srv} {m : Req} (g : Good cs H i s) (hs : Sent H i .appendReq m)
    (hc : ∀ e ∈ m.entries, ConfOk cs e) (hle : m.term ≤ s.term) : Answers cs H i s (handleAppendEntries m s) := by
  unfold handleAppendEntries
  by_cases ht : m.term = s.term
  · by_cases hl : s.role = .leader
    · rw [run_bind_err (run_hearLeader_lead ht hl)]; exact ⟨died_T g, fun _ h => nomatch h⟩
    rw [run_bind_ok (run_hearLeader_eq ht hl), bind_get]
    have t1 := follows_T g hs ht
    have hrole := follows_role hl
    have hterm := follows_term s
    generalize s.follows = s1 at t1 hrole hterm
    rw [← hterm] at ht
    rcases run_logOkay m s1 with ⟨hok, h⟩ | ⟨_, h⟩ | ⟨⟨h1, h2, _⟩, _⟩
    · rw [run_bind_ok h, if_neg (by rw [ht]; simp)]
      have hst := t1.1.start
      obtain ⟨cc, hse⟩ := run_storeEntries m s1 (by omega) (by
        rcases hok with h | h
        · have := next_one hst; omega
        · exact h.1)
      obtain ⟨p, a, st, mem⟩ := store_path (cs := cs) hst hs hc hrole ht hok
      rw [run_bind_ok hse, bind_modify]
      generalize s1.log.store (m.lastIdx + 1) m.entries = l2 at p a st mem
      generalize hs2 : ({ s1 with
        log := l2, configChanging := cc, leader := m.src,
        trace := s1.trace ++ storeFx s1.log (m.lastIdx + 1) m.entries } : Srv) = s2
      have hab : abs s2 = { abs s1 with log := l2.ents } := by rw [← hs2]; rfl
      have t2 : T cs H i s1 s2 := by
        refine ⟨?_, storeFx s1.log (m.lastIdx + 1) m.entries, by rw [← hs2], by rw [hab]; exact p⟩
        rw [← hs2]
        have g1 := t1.1
        refine ⟨g1.id, st, g1.ids, g1.servers, g1.catching, g1.steps, g1.join, g1.dist, ?_, g1.votes, g1.matched⟩
        intro e he
        exact (mem e he).elim (g1.conf e) (hc e)
      have e2 : s2.role = .follower ∧ s2.term = s1.term ∧ s2.log.ents = l2.ents := by
        rw [← hs2]; exact ⟨hrole, rfl, rfl⟩
      rw [run_bind_ok (run_commit (by rw [e2.1]; nofun) _)]
      have t3 : T cs H i s2 (s2.advanced m.commitIdx) := by
        unfold Srv.advanced
        split
        · rename_i hq
          have g2 := t2.1
          exact ⟨⟨g2.id, g2.start, g2.ids, g2.servers, g2.catching, g2.steps, g2.join, g2.dist, g2.conf, g2.votes,
            g2.matched⟩, [.advance m.commitIdx], rfl,
            .one (.follow (c := abs s2) hq hs (ht.trans e2.2.1.symm) (by
              show Agree s2.log.ents _ _
              rw [e2.2.2]; exact a)) trivial⟩
        · exact T.refl t2.1
      refine ⟨(t1.trans t2).trans t3, ?_⟩
      intro r hr
      have hr : _ = r := Except.ok.inj hr
      have e3 : (s2.advanced m.commitIdx).term = s1.term ∧ (s2.advanced m.commitIdx).log.ents = l2.ents := by
        unfold Srv.advanced
        split <;> exact ⟨e2.2.1, e2.2.2⟩
      rw [← hr]
      refine .stored rfl rfl e3.1.symm (.inl ⟨m, hs, ht.trans e3.1.symm, ?_, rfl⟩)
      show Agree (s2.advanced m.commitIdx).log.ents _ _
      rw [e3.2]; exact a
    · rw [run_bind_ok h, if_pos (.inr rfl)]
      refine ⟨t1, fun r hr => ?_⟩
      rw [← Except.ok.inj hr]
      exact refusal_ok _ rfl
    · have := t1.1.start; omega
  · rw [run_bind_ok (run_hearLeader_ne ht), bind_get]
    have hlt : m.term < s.term := by omega
    have hx : ∀ b, logOkay m s = (.ok b, s) → Answers cs H i s ((do
        let ok ← logOkay m
        if m.term < s.term ∨ ok = false then
          pure { type := .appendResp, term := s.term, src := s.id, dst := m.src, nextIdx := s.log.next }
        else do
          storeEntries m
          modify fun s => { s with leader := m.src }
          commit m.commitIdx
          pure { type := .appendResp, term := s.term, src := s.id, dst := m.src,
                 nextIdx := m.lastIdx + m.entries.length + 1, accepted := true } : R Resp) s) := by
      intro b h
      rw [run_bind_ok h, if_pos (.inl hlt)]
      refine ⟨T.refl g, fun r hr => ?_⟩
      rw [← Except.ok.inj hr]
      exact refusal_ok _ rfl
    rcases run_logOkay m s with ⟨_, h⟩ | ⟨_, h⟩ | ⟨⟨h1, h2, _⟩, _⟩
    · exact hx _ h
    · exact hx _ h
    · have := g.start; omega

/-! ## Vote requests -/

theorem upToDate_one {l : Log} {m : Req} (hl : l.start = 1) (h : upToDate m l = true) :
    lastTermOf l.ents < m.lastTerm ∨ m.lastTerm = lastTermOf l.ents ∧ l.ents.length ≤ m.lastIdx := by
  unfold upToDate at h
  rw [Bool.or_eq_true, Bool.and_eq_true, decide_eq_true_eq, decide_eq_true_eq, decide_eq_true_eq] at h
  have hn := next_one hl
  rcases h with h | ⟨h1, h2⟩
  · exact .inl h
  · exact .inr ⟨h1, by omega⟩

variable [hm : Member cs i]
include hm

theorem handleVoteReq_T {s : Srv} {m : Req} (g : Good cs H i s) (hs : Sent H i .voteReq m) (hsrc : m.src ≠ -1) :
    Answers cs H i s (handleVoteReq m s) := by
  rw [run_handleVoteReq]
  split
  · rename_i h
    obtain ⟨h1, h2, h3⟩ := h
    refine ⟨⟨⟨g.id, g.start, g.ids, g.servers, g.catching, g.steps, g.join, g.dist, g.conf, ?_, g.matched⟩,
      [.saveState s.term m.src], rfl, .one (.grant (c := abs s) hs h1 h3 (upToDate_one g.start h2)) trivial⟩, ?_⟩
    · intro hec
      obtain ⟨V, v1, v2, v3, v4⟩ := g.votes hec
      refine ⟨V, v1, v2, v3, fun v hv => ⟨(v4 v hv).1, ?_⟩⟩
      rcases (v4 v hv).2 with ⟨a, b⟩ | h
      · refine .inl ⟨a, ?_⟩
        rcases h3 with h3 | h3
        · exact h3 ▸ b
        · exact absurd (b.symm.trans h3) hm.ne
      · exact .inr h
    · intro r hr
      rw [← Except.ok.inj hr]
      exact .voted rfl rfl rfl rfl hsrc
  · refine ⟨T.refl g, fun r hr => ?_⟩
    rw [← Except.ok.inj hr]
    exact refusal_ok _ rfl

omit hm in
theorem handlePrevoteReq_T {s : Srv} {m : Req} (g : Good cs H i s) : Answers cs H i s (handlePrevoteReq m s) := by
  unfold handlePrevoteReq
  rw [bind_get]
  split
  · refine ⟨T.refl g, fun r hr => ?_⟩
    rw [← Except.ok.inj hr]
    exact .other (fun _ => ⟨nofun, nofun⟩)
  · refine ⟨T.refl g, fun r hr => ?_⟩
    rw [← Except.ok.inj hr]
    exact refusal_ok _ rfl

/-! ## Client requests -/

omit hm in
theorem isLeader_run (s : Srv) :
    ∃ b el, isLeader s = (.ok b, { s with elapsed := el }) ∧ (b = true → s.role = .leader) := by
  unfold isLeader
  rw [bind_get]
  split
  · rename_i h
    rw [bind_modify, bind_get]
    split
    · exact ⟨false, _, rfl, nofun⟩
    · exact ⟨_, _, rfl, fun _ => h.1⟩
  · exact ⟨_, s.elapsed, rfl, fun h => of_decide_eq_true h⟩

theorem handleCliReq_T {s : Srv} {m : Req} (g : Good cs H i s) (hc : ∀ e ∈ m.entries, ConfOk cs e) :
    Answers cs H i s (handleCliReq m s) := by
  unfold handleCliReq
  obtain ⟨b, el, hb, hlead⟩ := isLeader_run s
  rw [run_bind_ok hb, bind_get]
  have st : Still s { s with elapsed := el } :=
    ⟨rfl, rfl, rfl, rfl, rfl, rfl, rfl, rfl, rfl, rfl, rfl, rfl, rfl, fun h => h, rfl⟩
  have t1 : T cs H i s { s with elapsed := el } := st.T (es := []) (List.append_nil _).symm (by simp) g
  have hr1 : b = true → ({ s with elapsed := el } : Srv).role = .leader := hlead
  generalize ({ s with elapsed := el } : Srv) = s1 at t1 hr1
  split
  · refine ⟨t1, fun r hr => ?_⟩
    rw [← Except.ok.inj hr]
    exact refusal_ok _ rfl
  split
  · refine ⟨t1, fun r hr => ?_⟩
    rw [← Except.ok.inj hr]
    exact refusal_ok _ rfl
  · rename_i hb2
    have hlead1 := hr1 (by simpa using hb2)
    have h2 := ql_appendClient m.entries hc s1 t1.1 hlead1
    rw [run_bind]
    rcases ha : appendClient m.entries s1 with ⟨e | u, s2⟩
    · rw [ha] at h2
      exact ⟨t1.trans h2.1, fun _ h => nomatch h⟩
    rw [ha] at h2
    obtain ⟨t2, r2, e2⟩ := h2
    have h3 := ql_requestAppendAll s2 t2.1 r2
    show Answers cs H i s ((requestAppendAll >>= fun _ => do
      let s' ← get
      pure { type := .appendResp, term := s1.term, src := s1.id, dst := s1.leader, nextIdx := s'.log.next,
             accepted := true } : R Resp) s2)
    rw [run_bind]
    rcases hq : requestAppendAll s2 with ⟨e | u, s3⟩
    · rw [hq] at h3
      exact ⟨(t1.trans t2).trans h3.1, fun _ h => nomatch h⟩
    rw [hq] at h3
    obtain ⟨t3, r3, e3⟩ := h3
    refine ⟨(t1.trans t2).trans t3, fun r hr => ?_⟩
    rw [← Except.ok.inj hr]
    exact .stored rfl rfl (e3.trans e2).symm (.inr ⟨r3, next_one t3.1.start⟩)

/-! ## All requests -/

/-- Requests a server of the cluster gets. -/
def ReqOk (cs : List SrvCfg) (H : History) (i : Int) (m : Req) : Prop :=
  Sent H i .appendReq m ∧ (∀ e ∈ m.entries, ConfOk cs e) ∨ Sent H i .voteReq m ∧ m.src ≠ -1 ∨ m.type = .prevoteReq ∨
    m.type = .clientReq ∧ ∀ e ∈ m.entries, ConfOk cs e

omit hm in
theorem heard_T {s : Srv} (m : Req) (g : Good cs H i s) : T cs H i s (s.heard m) := by
  have hst : (if 0 < s.stepsToDown then 2 else s.stepsToDown) = s.stepsToDown := if_neg (by rw [g.steps]; decide)
  unfold Srv.heard
  rw [hst]
  by_cases h1 : m.type = .appendReq ∨ m.type = .voteReq ∨ m.type = .snpReq
  · rw [if_pos h1]
    by_cases h : s.term < m.term
    · rw [if_pos h]
      exact newTerm_T g h
    · rw [if_neg h]
      exact T.refl g
  · rw [if_neg h1]
    exact T.refl g

omit hm in
theorem T.answers {s s1 : Srv} {x : Except Fault Resp × Srv} (h1 : T cs H i s s1) (h2 : Answers cs H i s1 x) :
    Answers cs H i s x := ⟨h1.trans h2.1, h2.2⟩

theorem processReq_T {s : Srv} {m : Req} (g : Good cs H i s) (hm' : ReqOk cs H i m) :
    Answers cs H i s (processReq m s) := by
  rw [run_processReq]
  have t := heard_T m g
  rcases hm' with ⟨hs, hc⟩ | ⟨hs, hsrc⟩ | hp | ⟨hp, hc⟩
  · have hty := hs.2.2
    have hle : m.term ≤ (s.heard m).term := by rw [heard_term (.inl hty)]; omega
    have : dispatch m (s.heard m) = handleAppendEntries m (s.heard m) := by unfold dispatch; rw [hty]
    rw [this]
    exact t.answers (handleAppendEntries_T t.1 hs hc hle)
  · have hty := hs.2.2
    have : dispatch m (s.heard m) = handleVoteReq m (s.heard m) := by unfold dispatch; rw [hty]
    rw [this]
    exact t.answers (handleVoteReq_T t.1 hs hsrc)
  · have : dispatch m (s.heard m) = handlePrevoteReq m (s.heard m) := by unfold dispatch handleExtended; rw [hp]
    rw [this]
    exact t.answers (handlePrevoteReq_T t.1)
  · have : dispatch m (s.heard m) = handleCliReq m (s.heard m) := by unfold dispatch; rw [hp]
    rw [this]
    exact t.answers (handleCliReq_T t.1 hc)

theorem req_T {s : Srv} {m : Req} (g : Good cs H i s) (h : ReqOk cs H i m) : T cs H i s ((Input.req m).run s).2 := by
  have hp := processReq_T g h
  show T cs H i s ((processReq m >>= fun resp => emit (.reply resp)) s).2
  rw [run_bind]
  rcases hc : processReq m s with ⟨e | r, s1⟩
  · rw [hc] at hp; exact hp.1
  · rw [hc] at hp
    refine hp.1.trans ?_
    show T cs H i s1 { s1 with trace := s1.trace ++ [.reply r] }
    exact ⟨Still.good (s := s1)
      ⟨rfl, rfl, rfl, rfl, rfl, rfl, rfl, rfl, rfl, rfl, rfl, rfl, rfl, fun h => h, rfl⟩ hp.1.1, [.reply r], rfl,
      .one (hp.2 r rfl) trivial⟩

end Cs.Raft
