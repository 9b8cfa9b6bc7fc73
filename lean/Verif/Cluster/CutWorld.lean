import Verif.Cluster.CutAll
import Verif.Cluster.CutSpec

/-!
# A cluster that compacts its logs keeps to the protocol
-/

namespace Cs.Raft.Cut
open Cs Cs.Raft

variable {cs : List SrvCfg} {H : History} {i : Int} {pre : List Entry}

theorem Good.mono {H H' : History} (h : ∀ x ∈ H, x ∈ H') {s : Srv} (g : Good cs H i pre s) : Good cs H' i pre s := by
  refine { g with votes := fun hc => ?_, matched := fun k hk n h0 hn => ?_ }
  · obtain ⟨V, h1, h2, h3, h4⟩ := g.votes hc
    refine ⟨V, h1, h2, h3, fun v hv => ⟨(h4 v hv).1, ?_⟩⟩
    rcases (h4 v hv).2 with a | ⟨r, a, b⟩
    · exact .inl a
    · exact .inr ⟨r, h _ a, b⟩
  · obtain ⟨r, a, b⟩ := g.matched k hk n h0 hn
    exact ⟨r, h _ a, b⟩

/-! ## The disk -/

/-- The disk of a server that has compacted the entries `pre`. -/
structure DiskOk (cs : List SrvCfg) (pre : List Entry) (d : Disk) (c : PS) : Prop where
  term : d.term = c.term
  vote : d.vote = c.vote
  start : d.log.start = pre.length + 1
  log : c.log = pre ++ d.log.ents
  applied : d.applied ≤ c.qc
  servers : d.config.servers = cs
  conf : ∀ e ∈ c.log, ConfOk cs e
  full : pre = [] ∨ d.log.ents ≠ []
  snap : ∀ x, d.snap = some x → pre.length + 1 ≤ x.lastIdx
  has : pre = [] ∨ d.snap.isSome = true

theorem DiskOk.act {S : List Int} {d : Disk} {c c' : PS} {e : Eff} (h : DiskOk cs pre d c) (ha : Act S H i c e c')
    (he : EffOk cs e) (hw : High pre [e]) : DiskOk cs pre (d.after e) c' := by
  cases ha with
  | raise => exact ⟨rfl, rfl, h.start, h.log, h.applied, h.servers, h.conf, h.full, h.snap, h.has⟩
  | self => exact ⟨rfl, rfl, h.start, h.log, h.applied, h.servers, h.conf, h.full, h.snap, h.has⟩
  | grant => exact ⟨rfl, rfl, h.start, h.log, h.applied, h.servers, h.conf, h.full, h.snap, h.has⟩
  | ask => exact ⟨h.term, h.vote, h.start, h.log, h.applied, h.servers, h.conf, h.full, h.snap, h.has⟩
  | lead => exact ⟨h.term, h.vote, h.start, h.log, h.applied, h.servers, h.conf, h.full, h.snap, h.has⟩
  | @appendOwn e =>
    refine ⟨h.term, h.vote, h.start, ?_, h.applied, h.servers, fun x hx => ?_, .inr ?_, h.snap, h.has⟩
    · show c.log ++ [e] = pre ++ (d.log.ents ++ [e]); rw [h.log, List.append_assoc]
    · rcases mem_snoc.1 hx with hx | hx
      · exact h.conf x hx
      · rw [hx]; exact he
    · show d.log.ents ++ [e] ≠ []; simp
  | @append m k e =>
    refine ⟨h.term, h.vote, h.start, ?_, h.applied, h.servers, fun x hx => ?_, .inr ?_, h.snap, h.has⟩
    · show c.log ++ [e] = pre ++ (d.log.ents ++ [e]); rw [h.log, List.append_assoc]
    · rcases mem_snoc.1 hx with hx | hx
      · exact h.conf x hx
      · rw [hx]; exact he
    · show d.log.ents ++ [e] ≠ []; simp
  | @write m k e x =>
    have hk := hw _ _ List.mem_cons_self
    refine ⟨h.term, h.vote, h.start, ?_, h.applied, h.servers, fun x hx => ?_, .inr ?_, h.snap, h.has⟩
    · show c.log.take (m.lastIdx + k) ++ [e] = pre ++ (d.log.ents.take (m.lastIdx + k + 1 - d.log.start) ++ [e])
      rw [h.log, take_cut _ (by omega), h.start, List.append_assoc,
        show m.lastIdx + k + 1 - (pre.length + 1) = m.lastIdx + k - pre.length by omega]
    · rcases mem_snoc.1 hx with hx | hx
      · exact h.conf x (List.mem_of_mem_take hx)
      · rw [hx]; exact he
    · show d.log.ents.take _ ++ [e] ≠ []; simp
  | replicate => exact ⟨h.term, h.vote, h.start, h.log, h.applied, h.servers, h.conf, h.full, h.snap, h.has⟩
  | voted => exact ⟨h.term, h.vote, h.start, h.log, h.applied, h.servers, h.conf, h.full, h.snap, h.has⟩
  | stored => exact ⟨h.term, h.vote, h.start, h.log, h.applied, h.servers, h.conf, h.full, h.snap, h.has⟩
  | advance hq =>
    exact ⟨h.term, h.vote, h.start, h.log, Nat.le_of_lt (Nat.lt_of_le_of_lt h.applied hq), h.servers, h.conf, h.full, h.snap, h.has⟩
  | follow hq =>
    exact ⟨h.term, h.vote, h.start, h.log, Nat.le_of_lt (Nat.lt_of_le_of_lt h.applied hq), h.servers, h.conf, h.full, h.snap, h.has⟩
  | apply hq => exact ⟨h.term, h.vote, h.start, h.log, hq, h.servers, h.conf, h.full, h.snap, h.has⟩
  | other hn =>
    cases e with
    | saveConfig c => exact ⟨h.term, h.vote, h.start, h.log, h.applied, he, h.conf, h.full, h.snap, h.has⟩
    | saveState | append | writeAt | applyPack | compact | commit | applySnp | madeSnp => exact hn.elim
    | _ => exact ⟨h.term, h.vote, h.start, h.log, h.applied, h.servers, h.conf, h.full, h.snap, h.has⟩

theorem DiskOk.quiet {d : Disk} {c c' : PS} (h : DiskOk cs pre d c) (ha : Quiet H i c c') (he : c'.qc = c.qc) :
    DiskOk cs pre d c' := by
  obtain ⟨q1, q2, q3, _⟩ := ha.frame
  exact ⟨h.term.trans q1.symm, h.vote.trans q2.symm, h.start, by rw [q3]; exact h.log, by rw [he]; exact h.applied, h.servers,
    by rw [q3]; exact h.conf, h.full, h.snap, h.has⟩

theorem path_disk {c c' : PS} {es : List Eff} (hp : Path cs H i c es c') :
    ∀ {d : Disk}, High pre es → DiskOk cs pre d c → DiskOk cs pre (d.afterAll es) c' := by
  induction hp with
  | nil c => exact fun _ h => h
  | act ha he hp ih =>
    intro d hw h
    exact ih (fun k x hx => hw k x (List.mem_cons_of_mem _ hx))
      (h.act ha he fun k x hx => hw k x (by rw [List.mem_singleton.1 hx]; exact List.mem_cons_self))
  | quiet hq he hp ih => exact fun hw h => ih hw (h.quiet hq he)

theorem after_core {e : Eff} (h : core e ≠ true) (d : Disk) : d.after e = d := by
  cases e with
  | createSnp => rfl
  | send => rfl
  | _ => exact absurd rfl h

theorem afterAll_core : ∀ (es : List Eff) (d : Disk), d.afterAll es = d.afterAll (es.filter core)
  | [], _ => rfl
  | e :: es, d => by
    by_cases h : core e = true
    · rw [List.filter_cons_of_pos h]
      exact afterAll_core es _
    · rw [List.filter_cons_of_neg h]
      show (d.after e).afterAll es = _
      rw [after_core h]
      exact afterAll_core es d

theorem High.filter {es : List Eff} {p : Eff → Bool} (h : High pre es) : High pre (es.filter p) :=
  fun k x hx => h k x (List.mem_filter.1 hx).1

/-- Along the effects of an input. -/
theorem path_disk' {c c' : PS} {es : List Eff} (hp : Path cs H i c (es.filter core) c') {d : Disk} (hw : High pre es)
    (h : DiskOk cs pre d c) : DiskOk cs pre (d.afterAll es) c' := by
  rw [afterAll_core]
  exact path_disk hp hw.filter h

/-! ## Start -/

theorem boot_good {d : Disk} {c : PS} {pr : Params} {env : Env} (hd : DiskOk cs pre d c) (hn : (cs.map SrvCfg.id).Nodup)
    (hk : 1 ≤ pr.reserved) : Good cs H i pre (boot i pr env d) := by
  obtain ⟨h1, h2⟩ := bootPeers (i := i) (pr := pr) (xs := d.config.servers) (ps := []) (by rw [hd.servers]; exact hn)
    (by simp) (by simp)
  refine ⟨rfl, hd.start, ?_, hd.servers, rfl, rfl, rfl, ⟨hd.full, fun x hx => ?_, hk⟩, ?_, nofun, ?_⟩
  · show (d.config.servers.foldl (bootPeer i pr) []).map Peer.id = _
    rw [h1, hd.servers]; rfl
  · show d.log.start ≤ _
    rw [hd.start]; exact hd.snap x hx
  · show ∀ e ∈ pre ++ d.log.ents, _
    rw [← hd.log]; exact hd.conf
  · intro k hk n h0 hle
    obtain ⟨p, hp, rfl⟩ := List.mem_map.1 hk
    have : n ≤ p.matched := hle
    rw [h2 p hp] at this
    omega

theorem boot_abs {d : Disk} {c : PS} {pr : Params} {env : Env} (hd : DiskOk cs pre d c) (h1 : c.role = .follower)
    (h2 : c.counting = false) (h3 : c.qc = d.applied) : abs pre (boot i pr env d) = c := by
  have e1 := hd.term
  have e2 := hd.vote
  have e3 := hd.log
  rcases c with ⟨a1, a2, a3, a4, a5, a6⟩
  simp only [] at e1 e2 e3 h1 h2 h3
  show (⟨d.term, d.vote, pre ++ d.log.ents, .follower, !true, d.applied⟩ : PS) = _
  rw [e1, e2, e3, h1, h2, h3]
  rfl

/-! ## A snapshot is finished -/

theorem run_logCompact (k : Nat) (s : Srv) :
    (k < s.log.start ∧ logCompact k s = (.error .thrown, s)) ∨
    (s.log.start ≤ k ∧ logCompact k s = (.ok true, { s with log := s.log.compact k, trace := s.trace ++ [.compact k] })) ∨
    logCompact k s = (.ok false, s) := by
  unfold logCompact
  rw [bind_get]
  by_cases h : k < s.log.start
  · rw [if_pos h]; exact .inl ⟨h, rfl⟩
  · rw [if_neg h]
    by_cases h2 : s.env.compactOk k = true
    · rw [if_pos h2]; exact .inr (.inl ⟨by omega, rfl⟩)
    · rw [if_neg h2]; exact .inr (.inr rfl)

/-- What `on_snapshot_completed` does to a server whose log still has the entry. -/
theorem snapDone_ok {s : Srv} {snp : Snap} {ok : Bool} (g : Good cs H i pre s) (hin : InLog s (.snapDone snp ok)) :
    ∃ pre', Good cs H i pre' ((Input.snapDone snp ok).run s).2 ∧ abs pre' ((Input.snapDone snp ok).run s).2 = abs pre s ∧
      ((((Input.snapDone snp ok).run s).2.trace = s.trace ∧ pre' = pre) ∨
       ∃ q, q.lastIdx = snp.lastIdx ∧ s.log.start ≤ q.lastIdx ∧ q.lastIdx < s.log.next ∧
        ((((Input.snapDone snp ok).run s).2.trace = s.trace ++ [.madeSnp q] ∧ pre' = pre) ∨
         ∃ k, s.log.start ≤ k ∧ k < q.lastIdx ∧ ((Input.snapDone snp ok).run s).2.trace = s.trace ++ [.madeSnp q, .compact k] ∧
          pre' = pre ++ s.log.ents.take (k + 1 - s.log.start))) := by
  cases ok with
  | false =>
    have hr : ((Input.snapDone snp false).run s).2 = { s with snpInProgress := false } := rfl
    rw [hr]
    exact ⟨pre, Still.good (s := s) ⟨rfl, rfl, rfl, rfl, rfl, rfl, rfl, rfl, rfl, rfl, rfl, rfl, rfl, id, rfl, rfl⟩ g, rfl,
      .inl ⟨rfl, rfl⟩⟩
  | true =>
    have hin : (s.log.get? snp.lastIdx).isSome = true := hin
    obtain ⟨e, he⟩ := Option.isSome_iff_exists.1 hin
    obtain ⟨b1, b2⟩ := Log.get?_lt he
    have hst := g.start
    generalize hq : ({ snp with size := s.env.snpSize snp } : Snap) = q
    have hql : q.lastIdx = snp.lastIdx := by rw [← hq]
    have hr : (Input.snapDone snp true).run s = (do
        if s.params.reserved < snp.lastIdx then do
          let _ ← logCompact (snp.lastIdx - s.params.reserved)
        else pure ()
        modify fun s => { s with snpInProgress := false } : R Unit) { s with
          smSnap := some q, trace := s.trace ++ [.madeSnp q], lastSnap := some snp } := by
      rw [← hq]; rfl
    rw [hr]
    have base : ∀ b, Good cs H i pre { s with
        smSnap := some q, trace := s.trace ++ [.madeSnp q], lastSnap := some snp, snpInProgress := b } := by
      intro b
      exact ⟨g.id, g.start, g.ids, g.servers, g.catching, g.steps, g.join, ⟨g.cut.full, fun x hx => by
        cases hx; rw [hql]; exact b1, g.cut.kept⟩, g.conf, g.votes, g.matched⟩
    by_cases h1 : s.params.reserved < snp.lastIdx
    · rw [if_pos h1]
      generalize hk : snp.lastIdx - s.params.reserved = k
      have hkept := g.cut.kept
      rcases run_logCompact k { s with smSnap := some q, trace := s.trace ++ [.madeSnp q], lastSnap := some snp } with
        ⟨_, h⟩ | ⟨h2, h⟩ | h
      · rw [run_bind_err h]
        exact ⟨pre, base s.snpInProgress, rfl, .inr ⟨q, hql, by omega, by omega, .inl ⟨rfl, rfl⟩⟩⟩
      · have h2 : s.log.start ≤ k := h2
        rw [run_bind_ok h]
        have hn := next_cut hst
        have hen : pre ++ s.log.ents.take (k + 1 - s.log.start) ++ s.log.ents.drop (k + 1 - s.log.start) = pre ++ s.log.ents := by
          rw [List.append_assoc, List.take_append_drop]
        have hlen : (pre ++ s.log.ents).length = pre.length + s.log.ents.length := List.length_append
        have htl : (pre ++ s.log.ents.take (k + 1 - s.log.start)).length = k := by
          rw [List.length_append, List.length_take]; omega
        refine ⟨pre ++ s.log.ents.take (k + 1 - s.log.start), ?_, ?_, .inr ⟨q, hql, by omega, by omega, .inr ⟨k, h2, by omega, ?_, rfl⟩⟩⟩
        · refine ⟨g.id, ?_, g.ids, g.servers, g.catching, g.steps, g.join, ⟨.inr ?_, fun x hx => ?_, g.cut.kept⟩, ?_, g.votes,
            g.matched⟩
          · rw [htl]; rfl
          · show s.log.ents.drop (k + 1 - s.log.start) ≠ []
            intro h0
            have := congrArg List.length h0
            rw [List.length_drop, List.length_nil] at this
            omega
          · cases hx
            show k + 1 ≤ _
            omega
          · show ∀ e ∈ pre ++ s.log.ents.take (k + 1 - s.log.start) ++ s.log.ents.drop (k + 1 - s.log.start), _
            rw [hen]; exact g.conf
        · show (⟨s.term, s.vote, pre ++ s.log.ents.take (k + 1 - s.log.start) ++ s.log.ents.drop (k + 1 - s.log.start), s.role,
            !s.electionCompleted, s.quickCommit⟩ : PS) = _
          rw [hen]; rfl
        · show (s.trace ++ [.madeSnp q]) ++ [.compact k] = _
          rw [List.append_assoc]; rfl
      · rw [run_bind_ok h]
        exact ⟨pre, base false, rfl, .inr ⟨q, hql, by omega, by omega, .inl ⟨rfl, rfl⟩⟩⟩
    · rw [if_neg h1]
      exact ⟨pre, base false, rfl, .inr ⟨q, hql, by omega, by omega, .inl ⟨rfl, rfl⟩⟩⟩

/-! ## Requests -/

/-- What happens when an append request is handled: the answer, and the commit index. -/
theorem appendEntries_shape {s : Srv} {m : Req} (g : Good cs H i pre s) (hs : Sent H i .appendReq m)
    (hcf : ∀ e ∈ m.entries, ConfOk cs e) (hle : m.term ≤ s.term) :
    ∃ es, (handleAppendEntries m s).2.trace = s.trace ++ es ∧ (∀ r, Eff.reply r ∉ es) ∧
      (∀ r, (handleAppendEntries m s).1 = .ok r → r.type = .appendResp ∧ r.src = s.id) ∧
      ∀ es1 n es2, es = es1 ++ .advance n :: es2 → es2 = [] ∧ n = m.commitIdx ∧
        m.term = (handleAppendEntries m s).2.term ∧
        Agree (pre ++ (handleAppendEntries m s).2.log.ents) m m.entries.length := by
  have dull : ∀ {es : List Eff}, Dull es → ∀ {P : Prop} (es1 : List Eff) (n : Nat) (es2 : List Eff),
      es = es1 ++ .advance n :: es2 → P := by
    intro es hd P es1 n es2 he
    exact absurd (by rw [he]; simp) (hd.2 n)
  unfold handleAppendEntries
  by_cases ht : m.term = s.term
  · by_cases hl : s.role = .leader
    · rw [run_bind_err (run_hearLeader_lead ht hl)]
      exact ⟨[.exit (-1)], rfl, by simp, fun _ h => (by cases h), fun a b c h => dull (es := [.exit (-1)]) ⟨by simp, by simp⟩ a b c h⟩
    rw [run_bind_ok (run_hearLeader_eq ht hl), bind_get]
    obtain ⟨e0, t0, d0⟩ := dull_follows s
    have g1 := (follows_T g hs ht).1
    have hrole := follows_role hl
    have hterm := follows_term s
    have hid : s.follows.id = s.id := by unfold Srv.follows; split <;> rfl
    generalize s.follows = s1 at t0 hrole hterm hid g1
    rw [← hterm] at ht
    rcases run_logOkay m s1 with ⟨hok, h⟩ | ⟨_, h⟩ | ⟨_, h⟩
    · rw [run_bind_ok h, if_neg (by rw [ht]; simp)]
      rcases storing (cs := cs) g1 hs hcf hrole ht hok with hse | ⟨cc, l2, fx, hse, _, hag, _, _, _, hd, _, _⟩
      · rw [run_bind_err hse]
        exact ⟨e0, t0, d0.1, fun _ h => (by cases h), fun a b c h => dull d0 a b c h⟩
      rw [run_bind_ok hse, bind_modify]
      generalize hs2 : ({ s1 with log := l2, configChanging := cc, leader := m.src, trace := s1.trace ++ fx } : Srv) = s2
      have e2 : s2.role = .follower ∧ s2.term = s1.term ∧ s2.log.ents = l2.ents ∧ s2.trace = s.trace ++ (e0 ++ fx) := by
        rw [← hs2]; exact ⟨hrole, rfl, rfl, by show s1.trace ++ fx = _; rw [t0, List.append_assoc]⟩
      rw [run_bind_ok (run_commit (by rw [e2.1]; nofun) _)]
      by_cases hq : s2.quickCommit < m.commitIdx
      · have e3 : (s2.advanced m.commitIdx).trace = s.trace ++ (e0 ++ fx ++ [.advance m.commitIdx]) ∧
            (s2.advanced m.commitIdx).term = s1.term ∧ (s2.advanced m.commitIdx).log.ents = l2.ents := by
          unfold Srv.advanced
          rw [if_pos hq]
          refine ⟨?_, e2.2.1, e2.2.2.1⟩
          show s2.trace ++ _ = _
          rw [e2.2.2.2]
          simp only [List.append_assoc]
        refine ⟨_, e3.1, ?_, fun r h => by rw [← Except.ok.inj h]; exact ⟨rfl, hid⟩, ?_⟩
        · intro r h
          rcases List.mem_append.1 h with h | h
          · exact (d0.append hd).1 r h
          · simp at h
        · intro es1 n es2 he
          have hd' := (d0.append hd).2
          generalize e0 ++ fx = a at he hd'
          rcases List.eq_nil_or_concat es2 with rfl | ⟨es3, x, rfl⟩
          · have := List.append_inj' he rfl
            have hn : m.commitIdx = n := by simpa using this.2
            refine ⟨rfl, hn.symm, ?_, ?_⟩
            · show m.term = (s2.advanced m.commitIdx).term
              rw [e3.2.1]; exact ht
            · show Agree (pre ++ (s2.advanced m.commitIdx).log.ents) _ _
              rw [e3.2.2]; exact hag
          · rw [List.concat_eq_append, ← List.cons_append, ← List.append_assoc] at he
            have := (List.append_inj' he rfl).1
            exact absurd (by rw [this]; simp) (hd' n)
      · have e3 : (s2.advanced m.commitIdx).trace = s.trace ++ (e0 ++ fx) := by
          unfold Srv.advanced
          rw [if_neg hq]; exact e2.2.2.2
        exact ⟨_, e3, (d0.append hd).1, fun r h => by rw [← Except.ok.inj h]; exact ⟨rfl, hid⟩, fun a b c h => dull (d0.append hd) a b c h⟩
    · rw [run_bind_ok h, if_pos (.inr rfl)]
      refine ⟨e0, t0, d0.1, ?_, fun a b c h => dull d0 a b c h⟩
      intro r h
      rw [← Except.ok.inj h]
      exact ⟨rfl, hid⟩
    · rw [run_bind_err h]
      refine ⟨e0 ++ [.exit (-1)], by show s1.trace ++ _ = _; rw [t0, List.append_assoc], ?_, fun _ h => (by cases h), ?_⟩
      · exact (d0.append (b := [.exit (-1)]) ⟨by simp, by simp⟩).1
      · exact fun a b c h => dull (d0.append (b := [.exit (-1)]) ⟨by simp, by simp⟩) a b c h
  · rw [run_bind_ok (run_hearLeader_ne ht), bind_get]
    have hlt : m.term < s.term := by omega
    rcases run_logOkay m s with ⟨_, h⟩ | ⟨_, h⟩ | ⟨_, h⟩
    · rw [run_bind_ok h, if_pos (.inl hlt)]
      exact ⟨[], (List.append_nil _).symm, by simp, fun r h => by rw [← Except.ok.inj h]; exact ⟨rfl, rfl⟩, fun a b c h => dull Dull.nil a b c h⟩
    · rw [run_bind_ok h, if_pos (.inl hlt)]
      exact ⟨[], (List.append_nil _).symm, by simp, fun r h => by rw [← Except.ok.inj h]; exact ⟨rfl, rfl⟩, fun a b c h => dull Dull.nil a b c h⟩
    · rw [run_bind_err h]
      exact ⟨[.exit (-1)], rfl, by simp, fun _ h => (by cases h), fun a b c h => dull (es := [.exit (-1)]) ⟨by simp, by simp⟩ a b c h⟩

/-- The same for any request another server sends. -/
theorem req_shape {s : Srv} {m : Req} (g : Good cs H i pre s) (ha : ReqOk cs H i m) (hc : m.type ≠ .clientReq) :
    ∃ es, ((Input.req m).run s).2.trace = s.trace ++ es ∧ (∀ r, Eff.reply r ∈ es → RespFor m i r) ∧
      ∀ es1 n es2, es = es1 ++ .advance n :: es2 → n = m.commitIdx ∧ m.type = .appendReq ∧
        m.term = ((Input.req m).run s).2.term ∧ Agree (pre ++ ((Input.req m).run s).2.log.ents) m m.entries.length ∧
        (es2 = [] ∨ ∃ r, es2 = [.reply r]) := by
  obtain ⟨e0, t0, d0⟩ := dull_heard s m
  have hid : (s.heard m).id = i := by rw [heard_id]; exact g.id
  show ∃ es, ((processReq m >>= fun resp => emit (.reply resp)) s).2.trace = s.trace ++ es ∧ _ ∧
    ∀ es1 n es2, es = es1 ++ .advance n :: es2 → n = m.commitIdx ∧ m.type = .appendReq ∧
        m.term = ((processReq m >>= fun resp => emit (.reply resp)) s).2.term ∧
        Agree (pre ++ ((processReq m >>= fun resp => emit (.reply resp)) s).2.log.ents) m m.entries.length ∧
        (es2 = [] ∨ ∃ r, es2 = [.reply r])
  rw [run_bind, run_processReq]
  have hx : ∃ es, (dispatch m (s.heard m)).2.trace = s.trace ++ es ∧ (∀ r, Eff.reply r ∉ es) ∧
      (∀ r, (dispatch m (s.heard m)).1 = .ok r → RespFor m i r) ∧
      ∀ es1 n es2, es = es1 ++ .advance n :: es2 → es2 = [] ∧ n = m.commitIdx ∧ m.type = .appendReq ∧
        m.term = (dispatch m (s.heard m)).2.term ∧ Agree (pre ++ (dispatch m (s.heard m)).2.log.ents) m m.entries.length := by
    rcases ha with ⟨hs, hcf⟩ | ⟨hs, hsrc⟩ | hp | ⟨hp, _⟩
    · have hty := hs.2.2
      have hle : m.term ≤ (s.heard m).term := by rw [heard_term (.inl hty)]; omega
      have : dispatch m (s.heard m) = handleAppendEntries m (s.heard m) := by unfold dispatch; rw [hty]
      rw [this]
      obtain ⟨es, h1, h2, h3, h4⟩ := appendEntries_shape (cs := cs) (heard_T m g).1 hs hcf hle
      refine ⟨e0 ++ es, by rw [h1, t0, List.append_assoc], ?_, ?_, ?_⟩
      · intro r h
        exact (List.mem_append.1 h).elim (d0.1 r) (h2 r)
      · intro r h
        obtain ⟨a, b⟩ := h3 r h
        exact ⟨b.trans hid, by rw [hty]; nofun, fun _ => a, by rw [hty]; nofun⟩
      · intro es1 n es2 he
        rcases List.append_eq_append_iff.1 he with ⟨a, ha1, ha2⟩ | ⟨a, ha1, ha2⟩
        · obtain ⟨x1, x2, x3, x4⟩ := h4 a n es2 ha2
          exact ⟨x1, x2, hty, x3, x4⟩
        · cases a with
          | nil =>
            obtain ⟨x1, x2, x3, x4⟩ := h4 [] n es2 (by simpa using ha2.symm)
            exact ⟨x1, x2, hty, x3, x4⟩
          | cons b a =>
            rw [List.cons_append, List.cons.injEq] at ha2
            exact absurd (by rw [ha1, ← ha2.1]; simp) (d0.2 n)
    · have hty := hs.2.2
      have : dispatch m (s.heard m) = handleVoteReq m (s.heard m) := by unfold dispatch; rw [hty]
      rw [this, run_handleVoteReq]
      have dull : ∀ {es : List Eff}, Dull es → ∀ {P : Prop} (es1 : List Eff) (n : Nat) (es2 : List Eff),
          es = es1 ++ .advance n :: es2 → P := by
        intro es hd P es1 n es2 he
        exact absurd (by rw [he]; simp) (hd.2 n)
      split
      · have hd : Dull (e0 ++ [.saveState (s.heard m).term m.src]) := d0.append ⟨by simp, by simp⟩
        refine ⟨e0 ++ [.saveState (s.heard m).term m.src], ?_, hd.1, ?_, fun a b c h => dull hd a b c h⟩
        · show (s.heard m).trace ++ _ = _
          rw [t0, List.append_assoc]
        · intro r h
          rw [← Except.ok.inj h]
          exact ⟨hid, fun _ => ⟨rfl, rfl⟩, by rw [hty]; nofun, by rw [hty]; nofun⟩
      · refine ⟨e0, t0, d0.1, ?_, fun a b c h => dull d0 a b c h⟩
        intro r h
        rw [← Except.ok.inj h]
        exact ⟨hid, fun _ => ⟨rfl, rfl⟩, by rw [hty]; nofun, by rw [hty]; nofun⟩
    · have : dispatch m (s.heard m) = handlePrevoteReq m (s.heard m) := by unfold dispatch handleExtended; rw [hp]
      rw [this]
      unfold handlePrevoteReq
      rw [bind_get]
      have dull : ∀ {P : Prop} (es1 : List Eff) (n : Nat) (es2 : List Eff), e0 = es1 ++ .advance n :: es2 → P := by
        intro P es1 n es2 he
        exact absurd (by rw [he]; simp) (d0.2 n)
      split
      · refine ⟨e0, t0, d0.1, ?_, fun a b c h => dull a b c h⟩
        intro r h
        rw [← Except.ok.inj h]
        exact ⟨hid, by rw [hp]; nofun, by rw [hp]; nofun, fun _ => rfl⟩
      · refine ⟨e0, t0, d0.1, ?_, fun a b c h => dull a b c h⟩
        intro r h
        rw [← Except.ok.inj h]
        exact ⟨hid, by rw [hp]; nofun, by rw [hp]; nofun, fun _ => rfl⟩
    · exact absurd hp hc
  obtain ⟨es, h1, h2, h3, h4⟩ := hx
  rcases hd : dispatch m (s.heard m) with ⟨f | r, s1⟩
  · rw [hd] at h1 h4
    refine ⟨es, h1, fun r h => absurd h (h2 r), fun es1 n es2 he => ?_⟩
    obtain ⟨x1, x2, x3, x4, x5⟩ := h4 es1 n es2 he
    exact ⟨x2, x3, x4, x5, .inl x1⟩
  · rw [hd] at h1 h3 h4
    refine ⟨es ++ [.reply r], ?_, ?_, ?_⟩
    · show s1.trace ++ _ = _
      rw [← List.append_assoc]
      exact congrArg (· ++ _) h1
    · intro r' h
      rcases mem_snoc.1 h with h | h
      · exact absurd h (h2 r')
      · cases h; exact h3 r rfl
    · intro es1 n es2 he
      rcases List.eq_nil_or_concat es2 with rfl | ⟨es3, x, rfl⟩
      · have := (List.append_inj' he rfl).2
        simp at this
      · rw [List.concat_eq_append, ← List.cons_append, ← List.append_assoc] at he
        have h5 := List.append_inj' he rfl
        obtain ⟨x1, x2, x3, x4, x5⟩ := h4 es1 n es3 h5.1
        refine ⟨x2, x3, x4, x5, .inr ⟨r, ?_⟩⟩
        rw [x1, List.concat_eq_append, List.nil_append]
        exact h5.2.symm

end Cs.Raft.Cut
