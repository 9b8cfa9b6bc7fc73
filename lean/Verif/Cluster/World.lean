import Verif.Cluster.LocalAll
import Verif.Cluster.Complete
import Verif.Cluster.Spec

/-!
# The cluster keeps to the protocol
-/

namespace Cs.Raft
open Cs

variable {cs : List SrvCfg} {H : History} {i : Int}

/-! ## Histories grow -/

theorem Sent.mono {H H' : History} (h : ∀ x ∈ H, x ∈ H') {ty : MsgType} {m : Req} (hs : Sent H i ty m) : Sent H' i ty m := by
  obtain ⟨⟨j, hj⟩, h2⟩ := hs
  exact ⟨⟨j, h _ hj⟩, h2⟩

theorem Act.mono {S : List Int} {H H' : History} (h : ∀ x ∈ H, x ∈ H') {c c' : PS} {e : Eff} (ha : Act S H i c e c') :
    Act S H' i c e c' := by
  cases ha with
  | raise h1 h2 => exact .raise h1 h2
  | self h1 h2 => exact .self h1 h2
  | grant h1 h2 h3 h4 => exact .grant (h1.mono h) h2 h3 h4
  | ask h1 h2 h3 h4 h5 h6 h7 h8 => exact .ask h1 h2 h3 h4 h5 h6 h7 h8
  | lead h1 h2 h3 h4 h5 =>
    refine .lead h1 h2 h3 h4 fun v hv => ?_
    rcases h5 v hv with a | ⟨r, a, b⟩
    · exact .inl a
    · exact .inr ⟨r, h _ a, b⟩
  | appendOwn h1 h2 => exact .appendOwn h1 h2
  | append h1 h2 h3 h4 h5 h6 => exact .append (h1.mono h) h2 h3 h4 h5 h6
  | write h1 h2 h3 h4 h5 h6 h7 => exact .write (h1.mono h) h2 h3 h4 h5 h6 h7
  | replicate h1 h2 h3 h4 h5 h6 h7 h8 h9 => exact .replicate h1 h2 h3 h4 h5 h6 h7 h8 h9
  | voted h1 h2 h3 h4 h5 => exact .voted h1 h2 h3 h4 h5
  | stored h1 h2 h3 h4 =>
    refine .stored h1 h2 h3 ?_
    rcases h4 with ⟨m, a, b⟩ | a
    · exact .inl ⟨m, a.mono h, b⟩
    · exact .inr a
  | advance h1 h2 h3 h4 h5 =>
    refine .advance h1 h2 h3 h4 fun v hv => ?_
    rcases h5 v hv with a | ⟨r, a, b⟩
    · exact .inl a
    · exact .inr ⟨r, h _ a, b⟩
  | follow h1 h2 h3 h4 => exact .follow h1 (h2.mono h) h3 h4
  | apply h1 h2 => exact .apply h1 h2
  | other h1 => exact .other h1

theorem Quiet.mono {H H' : History} (h : ∀ x ∈ H, x ∈ H') {c c' : PS} (ha : Quiet H i c c') : Quiet H' i c c' := by
  cases ha with
  | stepDown h1 h2 h3 => exact .stepDown (h1.mono h) h2 h3
  | complete => exact .complete
  | crash h1 => exact .crash h1

theorem Good.mono {H H' : History} (h : ∀ x ∈ H, x ∈ H') {s : Srv} (g : Good cs H i s) : Good cs H' i s := by
  refine { g with votes := fun hc => ?_, matched := fun k hk n h0 hn => ?_ }
  · obtain ⟨V, h1, h2, h3, h4⟩ := g.votes hc
    refine ⟨V, h1, h2, h3, fun v hv => ⟨(h4 v hv).1, ?_⟩⟩
    rcases (h4 v hv).2 with a | ⟨r, a, b⟩
    · exact .inl a
    · exact .inr ⟨r, h _ a, b⟩
  · obtain ⟨r, a, b⟩ := g.matched k hk n h0 hn
    exact ⟨r, h _ a, b⟩

theorem Ghost.Le.trans {H H' : History} {g1 g2 g3 : Ghost} (h : ∀ x ∈ H, x ∈ H') (h1 : Ghost.Le H g1 g2)
    (h2 : Ghost.Le H' g2 g3) : Ghost.Le H g1 g3 :=
  ⟨fun t => (h1.llog t).trans (h2.llog t), fun hl => (h2.elog (hl.imp fun _ a => h _ a)).trans (h1.elog hl),
   fun hl => (h2.clog (h _ hl)).trans (h1.clog hl)⟩

/-! ## Along a path -/

theorem upd_upd (ps : Int → PS) (i : Int) (a b : PS) : upd (upd ps i a) i b = upd ps i b := by
  funext k
  unfold upd
  split <;> rfl

theorem upd_same (ps : Int → PS) (i : Int) : upd ps i (ps i) = ps := by
  funext k
  unfold upd
  split
  · rename_i h; rw [h]
  · rfl

theorem Path.safe {c c' : PS} {es : List Eff} (hp : Path cs H i c es c') (hS : -1 ∉ cs.map SrvCfg.id)
    (hi : i ∈ cs.map SrvCfg.id) : ∀ {ps : Int → PS} {H' : History} {g : Ghost}, (∀ x ∈ H, x ∈ H') → ps i = c →
    SafeOk (cs.map SrvCfg.id) ps H' g → ∃ g', Ghost.Le H' g g' ∧
      SafeOk (cs.map SrvCfg.id) (upd ps i c') (H' ++ es.map fun e => (i, e)) g' := by
  induction hp with
  | nil c =>
    intro ps H' g hH hc h
    rw [← hc, upd_same, List.map_nil, List.append_nil]
    exact ⟨g, Ghost.Le.refl _ _, h⟩
  | @act c c' c'' e es ha he hp ih =>
    intro ps H' g hH hc h
    obtain ⟨g1, l1, s1⟩ := h.act hS hi (by rw [hc]; exact ha.mono hH)
    obtain ⟨g2, l2, s2⟩ := ih (fun x hx => mem_snoc.2 (.inl (hH x hx))) (upd_self _ _ _) s1
    rw [upd_upd, List.append_assoc] at s2
    exact ⟨g2, l1.trans (fun x hx => mem_snoc.2 (.inl hx)) l2, s2⟩
  | quiet hq he hp ih =>
    intro ps H' g hH hc h
    have s1 := h.quiet (by rw [hc]; exact hq.mono hH)
    obtain ⟨g2, l2, s2⟩ := ih hH (upd_self _ _ _) s1
    rw [upd_upd] at s2
    exact ⟨g2, l2, s2⟩

/-- The disk of a server. -/
structure DiskOk (cs : List SrvCfg) (d : Disk) (c : PS) : Prop where
  term : d.term = c.term
  vote : d.vote = c.vote
  log : d.log = ⟨1, c.log⟩
  applied : d.applied ≤ c.qc
  servers : d.config.servers = cs
  conf : ∀ e ∈ c.log, ConfOk cs e

theorem DiskOk.act {S : List Int} {d : Disk} {c c' : PS} {e : Eff} (h : DiskOk cs d c) (ha : Act S H i c e c')
    (he : EffOk cs e) : DiskOk cs (d.after e) c' := by
  cases ha with
  | raise => exact ⟨rfl, rfl, h.log, h.applied, h.servers, h.conf⟩
  | self => exact ⟨rfl, rfl, h.log, h.applied, h.servers, h.conf⟩
  | grant => exact ⟨rfl, rfl, h.log, h.applied, h.servers, h.conf⟩
  | ask => exact ⟨h.term, h.vote, h.log, h.applied, h.servers, h.conf⟩
  | lead => exact ⟨h.term, h.vote, h.log, h.applied, h.servers, h.conf⟩
  | @appendOwn e =>
    refine ⟨h.term, h.vote, ?_, h.applied, h.servers, fun x hx => ?_⟩
    · show d.log.append e = _; rw [h.log]; rfl
    · rcases mem_snoc.1 hx with hx | hx
      · exact h.conf x hx
      · rw [hx]; exact he
  | @append m k e =>
    refine ⟨h.term, h.vote, ?_, h.applied, h.servers, fun x hx => ?_⟩
    · show d.log.append e = _; rw [h.log]; rfl
    · rcases mem_snoc.1 hx with hx | hx
      · exact h.conf x hx
      · rw [hx]; exact he
  | @write m k e x =>
    refine ⟨h.term, h.vote, ?_, h.applied, h.servers, fun x hx => ?_⟩
    · show d.log.replaceFrom _ [e] = _; rw [h.log]; rfl
    · rcases mem_snoc.1 hx with hx | hx
      · exact h.conf x (List.mem_of_mem_take hx)
      · rw [hx]; exact he
  | replicate => exact ⟨h.term, h.vote, h.log, h.applied, h.servers, h.conf⟩
  | voted => exact ⟨h.term, h.vote, h.log, h.applied, h.servers, h.conf⟩
  | stored => exact ⟨h.term, h.vote, h.log, h.applied, h.servers, h.conf⟩
  | advance hq => exact ⟨h.term, h.vote, h.log, Nat.le_of_lt (Nat.lt_of_le_of_lt h.applied hq), h.servers, h.conf⟩
  | follow hq => exact ⟨h.term, h.vote, h.log, Nat.le_of_lt (Nat.lt_of_le_of_lt h.applied hq), h.servers, h.conf⟩
  | apply hq => exact ⟨h.term, h.vote, h.log, hq, h.servers, h.conf⟩
  | other hn =>
    cases e with
    | saveConfig c => exact ⟨h.term, h.vote, h.log, h.applied, he, h.conf⟩
    | saveState | append | writeAt | applyPack | compact | commit | applySnp => exact hn.elim
    | _ => exact ⟨h.term, h.vote, h.log, h.applied, h.servers, h.conf⟩

theorem DiskOk.quiet {d : Disk} {c c' : PS} (h : DiskOk cs d c) (ha : Quiet H i c c') (he : c'.qc = c.qc) :
    DiskOk cs d c' := by
  obtain ⟨q1, q2, q3, _⟩ := ha.frame
  exact ⟨h.term.trans q1.symm, h.vote.trans q2.symm, by rw [q3]; exact h.log, by rw [he]; exact h.applied, h.servers,
    by rw [q3]; exact h.conf⟩

theorem Path.disk {c c' : PS} {es : List Eff} (hp : Path cs H i c es c') :
    ∀ {d : Disk}, DiskOk cs d c → DiskOk cs (d.afterAll es) c' := by
  induction hp with
  | nil c => exact fun h => h
  | act ha he hp ih => exact fun h => ih (h.act ha he)
  | quiet hq he hp ih => exact fun h => ih (h.quiet hq he)

theorem Path.take {c c' : PS} {es : List Eff} (hp : Path cs H i c es c') :
    ∀ {fs : List Eff}, fs <+: es → ∃ c'', Path cs H i c fs c'' := by
  induction hp with
  | nil c => intro fs hf; rw [List.prefix_nil.1 hf]; exact ⟨c, .nil c⟩
  | act ha he hp ih =>
    intro fs hf
    cases fs with
    | nil => exact ⟨_, .nil _⟩
    | cons a fs =>
      have hf' := List.cons_prefix_cons.1 hf
      rw [hf'.1]
      obtain ⟨c'', hc⟩ := ih hf'.2
      exact ⟨c'', .act ha he hc⟩
  | quiet hq he hp ih =>
    intro fs hf
    obtain ⟨c'', hc⟩ := ih hf
    exact ⟨c'', .quiet hq he hc⟩

theorem Path.effs {c c' : PS} {es : List Eff} (hp : Path cs H i c es c') :
    ∀ e ∈ es, EffOk cs e ∧ ∃ a b, Act (cs.map SrvCfg.id) H i a e b := by
  induction hp with
  | nil c => intro e he; cases he
  | @act c c' c'' e es ha he hp ih =>
    intro x hx
    rcases List.mem_cons.1 hx with rfl | hx
    · exact ⟨he, _, _, ha⟩
    · exact ih x hx
  | quiet hq he hp ih => exact ih

theorem Act.acks {S : List Int} {c c' : PS} {r : Resp} (ha : Act S H i c (.reply r) c') (h1 : r.type = .appendResp)
    (h2 : r.accepted = true) : 0 < r.nextIdx := by
  cases ha with
  | voted h => rw [h1] at h; cases h
  | stored _ _ _ h =>
    rcases h with ⟨m, _, _, _, h⟩ | ⟨_, h⟩
    · omega
    · omega
  | other h => exact absurd h1 (h h2).2

/-! ## Start -/

theorem bootPeers {pr : Params} : ∀ {xs : List SrvCfg} {ps : List Peer}, (xs.map SrvCfg.id).Nodup →
    (∀ x ∈ xs, x.id ∉ ps.map Peer.id) → (∀ p ∈ ps, p.matched = 0) →
    (xs.foldl (bootPeer i pr) ps).map Peer.id = ps.map Peer.id ++ (xs.map SrvCfg.id).filter (· != i) ∧
      ∀ p ∈ xs.foldl (bootPeer i pr) ps, p.matched = 0
  | [], ps, _, _, h3 => ⟨(List.append_nil _).symm, h3⟩
  | x :: xs, ps, h1, h2, h3 => by
    rw [List.map_cons, List.nodup_cons] at h1
    rw [List.foldl_cons, List.map_cons]
    by_cases hx : x.id = i
    · have : bootPeer i pr ps x = ps := by unfold bootPeer; rw [if_pos (.inl hx)]
      rw [this, List.filter_cons_of_neg (by simp [hx])]
      exact bootPeers h1.2 (fun y hy => h2 y (List.mem_cons_of_mem _ hy)) h3
    · have hf : ¬ (ps.find? (·.id == x.id)).isSome = true := by
        rw [List.find?_isSome]
        rintro ⟨p, hp, he⟩
        exact h2 x List.mem_cons_self (List.mem_map.2 ⟨p, hp, by simpa using he⟩)
      have : bootPeer i pr ps x = ps ++ [{ cfg := x, hbInterval := pr.hbInterval }] := by
        unfold bootPeer; rw [if_neg fun h => h.elim hx hf]
      rw [this, List.filter_cons_of_pos (by simp [hx])]
      obtain ⟨a, b⟩ := bootPeers (pr := pr) (xs := xs) (ps := ps ++ [{ cfg := x, hbInterval := pr.hbInterval }]) h1.2
        (fun y hy hm => by
          rw [List.map_append, List.mem_append] at hm
          rcases hm with hm | hm
          · exact h2 y (List.mem_cons_of_mem _ hy) hm
          · have : y.id = x.id := by simpa [Peer.id] using hm
            exact h1.1 (this ▸ List.mem_map.2 ⟨y, hy, rfl⟩))
        (fun p hp => by
          rcases mem_snoc.1 hp with hp | hp
          · exact h3 p hp
          · rw [hp])
      refine ⟨?_, b⟩
      rw [a, List.map_append, List.append_assoc]
      rfl

theorem boot_good {d : Disk} {c : PS} {pr : Params} {env : Env} (hd : DiskOk cs d c) (hn : (cs.map SrvCfg.id).Nodup)
    (hs : pr.snpDistance = 0) : Good cs H i (boot i pr env d) := by
  obtain ⟨h1, h2⟩ := bootPeers (i := i) (pr := pr) (xs := d.config.servers) (ps := []) (by rw [hd.servers]; exact hn)
    (by simp) (by simp)
  refine ⟨rfl, ?_, ?_, hd.servers, rfl, rfl, rfl, hs, ?_, nofun, ?_⟩
  · show d.log.start = 1; rw [hd.log]
  · show (d.config.servers.foldl (bootPeer i pr) []).map Peer.id = _
    rw [h1, hd.servers]; rfl
  · show ∀ e ∈ d.log.ents, _
    rw [hd.log]; exact hd.conf
  · intro k hk n h0 hle
    obtain ⟨p, hp, rfl⟩ := List.mem_map.1 hk
    have : n ≤ p.matched := hle
    rw [h2 p hp] at this
    omega

theorem boot_abs {d : Disk} {c : PS} {pr : Params} {env : Env} (hd : DiskOk cs d c) (h1 : c.role = .follower)
    (h2 : c.counting = false) (h3 : c.qc = d.applied) : abs (boot i pr env d) = c := by
  have e1 := hd.term
  have e2 := hd.vote
  have e3 := hd.log
  rcases c with ⟨a1, a2, a3, a4, a5, a6⟩
  simp only [] at e1 e2 e3 h1 h2 h3
  show (⟨d.term, d.vote, d.log.ents, .follower, !true, d.applied⟩ : PS) = _
  rw [e1, e2, e3, h1, h2, h3]
  rfl

/-! ## Answers -/

/-- What kind of answer belongs to a request. -/
def RespFor (q : Req) (v : Int) (r : Resp) : Prop :=
  r.src = v ∧ (q.type = .voteReq → r.type = .voteResp ∧ r.dst = q.src) ∧ (q.type = .appendReq → r.type = .appendResp) ∧
  (q.type = .prevoteReq → r.type = .prevoteResp)

/-- Effects other than answers and changes of the commit index. -/
def Dull (es : List Eff) : Prop := (∀ r, Eff.reply r ∉ es) ∧ ∀ n, Eff.advance n ∉ es

theorem Dull.nil : Dull [] := ⟨nofun, nofun⟩
theorem Dull.append {a b : List Eff} (ha : Dull a) (hb : Dull b) : Dull (a ++ b) :=
  ⟨fun r h => (List.mem_append.1 h).elim (ha.1 r) (hb.1 r), fun n h => (List.mem_append.1 h).elim (ha.2 n) (hb.2 n)⟩

theorem dull_note (n : Nat) (e : Entry) : Dull (noteFx n e) := by
  unfold noteFx; split <;> constructor <;> simp
theorem dull_roll (n : Nat) (e : Entry) : Dull (rollFx n e) := by
  unfold rollFx; split <;> constructor <;> simp
theorem dull_append : ∀ (es : List Entry) (n : Nat), Dull (appendFx n es)
  | [], _ => Dull.nil
  | e :: es, n => by
    unfold appendFx
    exact .append (.append (a := [_]) ⟨by simp, by simp⟩ (dull_note n e)) (dull_append es _)
theorem dull_store (l : Log) (n : Nat) (es : List Entry) : Dull (storeFx l n es) := by
  unfold storeFx
  split
  · exact Dull.nil
  · split
    · exact .append (.append (dull_roll _ _) (.append (a := [_]) ⟨by simp, by simp⟩ (dull_note _ _))) (dull_append _ _)
    · exact dull_append _ _

theorem dull_heard (s : Srv) (m : Req) : ∃ es, (s.heard m).trace = s.trace ++ es ∧ Dull es := by
  unfold Srv.heard
  split
  · split
    · exact ⟨[.saveState m.term (-1), .event .becomeFollower], by
        show (s.trace ++ _) ++ _ = _; rw [List.append_assoc]; rfl, by constructor <;> simp⟩
    · exact ⟨[], (List.append_nil _).symm, Dull.nil⟩
  · exact ⟨[], (List.append_nil _).symm, Dull.nil⟩

theorem dull_follows (s : Srv) : ∃ es, s.follows.trace = s.trace ++ es ∧ Dull es := by
  unfold Srv.follows
  split
  · exact ⟨[.event .becomeFollower], rfl, by constructor <;> simp⟩
  · exact ⟨[], (List.append_nil _).symm, Dull.nil⟩

/-- What happens when an append request is handled: the answer, and the commit index. -/
theorem appendEntries_shape {s : Srv} {m : Req} (hst : s.log.start = 1) (hs : Sent H i .appendReq m)
    (hcf : ∀ e ∈ m.entries, ConfOk cs e) (hle : m.term ≤ s.term) :
    ∃ es, (handleAppendEntries m s).2.trace = s.trace ++ es ∧ (∀ r, Eff.reply r ∉ es) ∧
      (∀ r, (handleAppendEntries m s).1 = .ok r → r.type = .appendResp ∧ r.src = s.id) ∧
      ∀ es1 n es2, es = es1 ++ .advance n :: es2 → es2 = [] ∧ n = m.commitIdx ∧
        m.term = (handleAppendEntries m s).2.term ∧
        Agree (handleAppendEntries m s).2.log.ents m m.entries.length := by
  have dull : ∀ {es : List Eff}, Dull es → ∀ {P : Prop} (es1 : List Eff) (n : Nat) (es2 : List Eff),
      es = es1 ++ .advance n :: es2 → P := by
    intro es hd P es1 n es2 he
    exact absurd (by rw [he]; simp) (hd.2 n)
  unfold handleAppendEntries
  by_cases ht : m.term = s.term
  · by_cases hl : s.role = .leader
    · rw [run_bind_err (run_hearLeader_lead ht hl)]
      exact ⟨[.exit (-1)], rfl, by simp, fun _ h => (by cases h), fun a b c h => dull (es := [.exit (-1)]) ⟨by simp, by simp⟩ a b c h⟩
    rw [run_bind_ok (run_hearLeader_eq ht hl), bind_get]
    obtain ⟨e0, t0, d0⟩ := dull_follows s
    have hrole := follows_role hl
    have hterm := follows_term s
    have hid : s.follows.id = s.id := by unfold Srv.follows; split <;> rfl
    have hlog : s.follows.log = s.log := by unfold Srv.follows; split <;> rfl
    generalize s.follows = s1 at t0 hrole hterm hid hlog
    rw [← hterm] at ht
    rw [← hlog] at hst
    rcases run_logOkay m s1 with ⟨hok, h⟩ | ⟨_, h⟩ | ⟨⟨h1, h2, _⟩, _⟩
    · rw [run_bind_ok h, if_neg (by rw [ht]; simp)]
      obtain ⟨cc, hse⟩ := run_storeEntries m s1 (by omega) (by
        rcases hok with h | h
        · have := next_one hst; omega
        · exact h.1)
      have hag : Agree (s1.log.store (m.lastIdx + 1) m.entries).ents m m.entries.length :=
        (store_path (cs := cs) hst hs hcf hrole ht hok).2.1
      rw [run_bind_ok hse, bind_modify]
      have hd := dull_store s1.log (m.lastIdx + 1) m.entries
      generalize storeFx s1.log (m.lastIdx + 1) m.entries = fx at hd
      generalize s1.log.store (m.lastIdx + 1) m.entries = l2 at hag
      generalize hs2 : ({ s1 with log := l2, configChanging := cc, leader := m.src, trace := s1.trace ++ fx } : Srv) = s2
      have e2 : s2.role = .follower ∧ s2.term = s1.term ∧ s2.log.ents = l2.ents ∧ s2.trace = s.trace ++ (e0 ++ fx) := by
        rw [← hs2]; exact ⟨hrole, rfl, rfl, by show s1.trace ++ fx = _; rw [t0, List.append_assoc]⟩
      rw [run_bind_ok (run_commit (by rw [e2.1]; nofun) _)]
      by_cases hq : s2.quickCommit < m.commitIdx
      · have e3 : (s2.advanced m.commitIdx).trace = s.trace ++ (e0 ++ fx ++ [.advance m.commitIdx]) ∧
            (s2.advanced m.commitIdx).term = s1.term ∧ (s2.advanced m.commitIdx).log.ents = l2.ents := by
          unfold Srv.advanced
          rw [if_pos hq]
          refine ⟨?_, e2.2.1, e2.2.2.1⟩
          show s2.trace ++ _ = _
          rw [e2.2.2.2]
          simp only [List.append_assoc]
        refine ⟨_, e3.1, ?_, fun r h => by rw [← Except.ok.inj h]; exact ⟨rfl, hid⟩, ?_⟩
        · intro r h
          rcases List.mem_append.1 h with h | h
          · exact (d0.append hd).1 r h
          · simp at h
        · intro es1 n es2 he
          have hd' := (d0.append hd).2
          generalize e0 ++ fx = a at he hd'
          rcases List.eq_nil_or_concat es2 with rfl | ⟨es3, x, rfl⟩
          · have := List.append_inj' he rfl
            have hn : m.commitIdx = n := by simpa using this.2
            refine ⟨rfl, hn.symm, ?_, ?_⟩
            · show m.term = (s2.advanced m.commitIdx).term
              rw [e3.2.1]; exact ht
            · show Agree (s2.advanced m.commitIdx).log.ents _ _
              rw [e3.2.2]; exact hag
          · rw [List.concat_eq_append, ← List.cons_append, ← List.append_assoc] at he
            have := (List.append_inj' he rfl).1
            exact absurd (by rw [this]; simp) (hd' n)
      · have e3 : (s2.advanced m.commitIdx).trace = s.trace ++ (e0 ++ fx) := by
          unfold Srv.advanced
          rw [if_neg hq]; exact e2.2.2.2
        exact ⟨_, e3, (d0.append hd).1, fun r h => by rw [← Except.ok.inj h]; exact ⟨rfl, hid⟩, fun a b c h => dull (d0.append hd) a b c h⟩
    · rw [run_bind_ok h, if_pos (.inr rfl)]
      refine ⟨e0, t0, d0.1, ?_, fun a b c h => dull d0 a b c h⟩
      intro r h
      rw [← Except.ok.inj h]
      exact ⟨rfl, hid⟩
    · omega
  · rw [run_bind_ok (run_hearLeader_ne ht), bind_get]
    have hlt : m.term < s.term := by omega
    rcases run_logOkay m s with ⟨_, h⟩ | ⟨_, h⟩ | ⟨⟨h1, h2, _⟩, _⟩
    · rw [run_bind_ok h, if_pos (.inl hlt)]
      exact ⟨[], (List.append_nil _).symm, by simp, fun r h => by rw [← Except.ok.inj h]; exact ⟨rfl, rfl⟩, fun a b c h => dull Dull.nil a b c h⟩
    · rw [run_bind_ok h, if_pos (.inl hlt)]
      exact ⟨[], (List.append_nil _).symm, by simp, fun r h => by rw [← Except.ok.inj h]; exact ⟨rfl, rfl⟩, fun a b c h => dull Dull.nil a b c h⟩
    · omega

/-- The same for any request another server sends. -/
theorem req_shape {s : Srv} {m : Req} (g : Good cs H i s) (ha : ReqOk cs H i m) (hc : m.type ≠ .clientReq) :
    ∃ es, ((Input.req m).run s).2.trace = s.trace ++ es ∧ (∀ r, Eff.reply r ∈ es → RespFor m i r) ∧
      ∀ es1 n es2, es = es1 ++ .advance n :: es2 → n = m.commitIdx ∧ m.type = .appendReq ∧
        m.term = ((Input.req m).run s).2.term ∧ Agree ((Input.req m).run s).2.log.ents m m.entries.length ∧
        (es2 = [] ∨ ∃ r, es2 = [.reply r]) := by
  obtain ⟨e0, t0, d0⟩ := dull_heard s m
  have hst : (s.heard m).log.start = 1 := by rw [heard_log]; exact g.start
  have hid : (s.heard m).id = i := by rw [heard_id]; exact g.id
  show ∃ es, ((processReq m >>= fun resp => emit (.reply resp)) s).2.trace = s.trace ++ es ∧ _ ∧
    ∀ es1 n es2, es = es1 ++ .advance n :: es2 → n = m.commitIdx ∧ m.type = .appendReq ∧
        m.term = ((processReq m >>= fun resp => emit (.reply resp)) s).2.term ∧
        Agree ((processReq m >>= fun resp => emit (.reply resp)) s).2.log.ents m m.entries.length ∧
        (es2 = [] ∨ ∃ r, es2 = [.reply r])
  rw [run_bind, run_processReq]
  have hx : ∃ es, (dispatch m (s.heard m)).2.trace = s.trace ++ es ∧ (∀ r, Eff.reply r ∉ es) ∧
      (∀ r, (dispatch m (s.heard m)).1 = .ok r → RespFor m i r) ∧
      ∀ es1 n es2, es = es1 ++ .advance n :: es2 → es2 = [] ∧ n = m.commitIdx ∧ m.type = .appendReq ∧
        m.term = (dispatch m (s.heard m)).2.term ∧ Agree (dispatch m (s.heard m)).2.log.ents m m.entries.length := by
    rcases ha with ⟨hs, hcf⟩ | ⟨hs, hsrc⟩ | hp | ⟨hp, _⟩
    · have hty := hs.2.2
      have hle : m.term ≤ (s.heard m).term := by rw [heard_term (.inl hty)]; omega
      have : dispatch m (s.heard m) = handleAppendEntries m (s.heard m) := by unfold dispatch; rw [hty]
      rw [this]
      obtain ⟨es, h1, h2, h3, h4⟩ := appendEntries_shape (cs := cs) hst hs hcf hle
      refine ⟨e0 ++ es, by rw [h1, t0, List.append_assoc], ?_, ?_, ?_⟩
      · intro r h
        exact (List.mem_append.1 h).elim (d0.1 r) (h2 r)
      · intro r h
        obtain ⟨a, b⟩ := h3 r h
        exact ⟨b.trans hid, by rw [hty]; nofun, fun _ => a, by rw [hty]; nofun⟩
      · intro es1 n es2 he
        rcases List.append_eq_append_iff.1 he with ⟨a, ha1, ha2⟩ | ⟨a, ha1, ha2⟩
        · obtain ⟨x1, x2, x3, x4⟩ := h4 a n es2 ha2
          exact ⟨x1, x2, hty, x3, x4⟩
        · cases a with
          | nil =>
            obtain ⟨x1, x2, x3, x4⟩ := h4 [] n es2 (by simpa using ha2.symm)
            exact ⟨x1, x2, hty, x3, x4⟩
          | cons b a =>
            rw [List.cons_append, List.cons.injEq] at ha2
            exact absurd (by rw [ha1, ← ha2.1]; simp) (d0.2 n)
    · have hty := hs.2.2
      have : dispatch m (s.heard m) = handleVoteReq m (s.heard m) := by unfold dispatch; rw [hty]
      rw [this, run_handleVoteReq]
      have dull : ∀ {es : List Eff}, Dull es → ∀ {P : Prop} (es1 : List Eff) (n : Nat) (es2 : List Eff),
          es = es1 ++ .advance n :: es2 → P := by
        intro es hd P es1 n es2 he
        exact absurd (by rw [he]; simp) (hd.2 n)
      split
      · have hd : Dull (e0 ++ [.saveState (s.heard m).term m.src]) := d0.append ⟨by simp, by simp⟩
        refine ⟨e0 ++ [.saveState (s.heard m).term m.src], ?_, hd.1, ?_, fun a b c h => dull hd a b c h⟩
        · show (s.heard m).trace ++ _ = _
          rw [t0, List.append_assoc]
        · intro r h
          rw [← Except.ok.inj h]
          exact ⟨hid, fun _ => ⟨rfl, rfl⟩, by rw [hty]; nofun, by rw [hty]; nofun⟩
      · refine ⟨e0, t0, d0.1, ?_, fun a b c h => dull d0 a b c h⟩
        intro r h
        rw [← Except.ok.inj h]
        exact ⟨hid, fun _ => ⟨rfl, rfl⟩, by rw [hty]; nofun, by rw [hty]; nofun⟩
    · have : dispatch m (s.heard m) = handlePrevoteReq m (s.heard m) := by unfold dispatch handleExtended; rw [hp]
      rw [this]
      unfold handlePrevoteReq
      rw [bind_get]
      have dull : ∀ {P : Prop} (es1 : List Eff) (n : Nat) (es2 : List Eff), e0 = es1 ++ .advance n :: es2 → P := by
        intro P es1 n es2 he
        exact absurd (by rw [he]; simp) (d0.2 n)
      split
      · refine ⟨e0, t0, d0.1, ?_, fun a b c h => dull a b c h⟩
        intro r h
        rw [← Except.ok.inj h]
        exact ⟨hid, by rw [hp]; nofun, by rw [hp]; nofun, fun _ => rfl⟩
      · refine ⟨e0, t0, d0.1, ?_, fun a b c h => dull a b c h⟩
        intro r h
        rw [← Except.ok.inj h]
        exact ⟨hid, by rw [hp]; nofun, by rw [hp]; nofun, fun _ => rfl⟩
    · exact absurd hp hc
  obtain ⟨es, h1, h2, h3, h4⟩ := hx
  rcases hd : dispatch m (s.heard m) with ⟨f | r, s1⟩
  · rw [hd] at h1 h4
    refine ⟨es, h1, fun r h => absurd h (h2 r), fun es1 n es2 he => ?_⟩
    obtain ⟨x1, x2, x3, x4, x5⟩ := h4 es1 n es2 he
    exact ⟨x2, x3, x4, x5, .inl x1⟩
  · rw [hd] at h1 h3 h4
    refine ⟨es ++ [.reply r], ?_, ?_, ?_⟩
    · show s1.trace ++ _ = _
      rw [← List.append_assoc]
      exact congrArg (· ++ _) h1
    · intro r' h
      rcases mem_snoc.1 h with h | h
      · exact absurd h (h2 r')
      · cases h; exact h3 r rfl
    · intro es1 n es2 he
      rcases List.eq_nil_or_concat es2 with rfl | ⟨es3, x, rfl⟩
      · have := (List.append_inj' he rfl).2
        simp at this
      · rw [List.concat_eq_append, ← List.cons_append, ← List.append_assoc] at he
        have h5 := List.append_inj' he rfl
        obtain ⟨x1, x2, x3, x4, x5⟩ := h4 es1 n es3 h5.1
        refine ⟨x2, x3, x4, x5, .inr ⟨r, ?_⟩⟩
        rw [x1, List.concat_eq_append, List.nil_append]
        exact h5.2.symm

end Cs.Raft
