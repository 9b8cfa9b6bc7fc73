import Verif.Raft.Generic

/-!
# `reconfigure`
-/

namespace Cs.Raft
open Cs

/-- Loops in which every step succeeds. -/
theorem forEach_ok {α : Type} {f : α → R Unit} {Inv : List α → Srv → Prop} :
    ∀ (as : List α) (done : List α) (s : Srv), Inv done s →
      (∀ done a s, a ∈ as → Inv done s → ∃ s', f a s = (.ok ⟨⟩, s') ∧ Inv (done ++ [a]) s') →
      ∃ s', forEach f as s = (.ok ⟨⟩, s') ∧ Inv (done ++ as) s'
  | [], done, s, h, _ => ⟨s, rfl, by simpa using h⟩
  | a :: as, done, s, h, hf => by
    obtain ⟨s1, h1, h2⟩ := hf done a s (by simp) h
    obtain ⟨s2, h3, h4⟩ := forEach_ok as (done ++ [a]) s1 h2 fun d b t hb => hf d b t (List.mem_cons_of_mem _ hb)
    refine ⟨s2, ?_, by simpa using h4⟩
    show (f a >>= fun _ => forEach f as) s = _
    rw [run_bind_ok h1]
    exact h3

/-- The old peers are there, followed by new ones for the servers `done`. -/
structure Added (s0 : Srv) (done : List SrvCfg) (s : Srv) : Prop where
  id : s.id = s0.id
  catchingUp : s.catchingUp = s0.catchingUp
  log : s.log = s0.log
  trace : s.trace = s0.trace
  peers : ∃ new : List Peer, s.peers = s0.peers ++ new ∧ (new.map Peer.id).Nodup ∧
    (∀ p ∈ new, p.cfg ∈ done ∧ p.matched = 0 ∧ p.snpCtx = none) ∧ (∀ c ∈ done, c.id ∈ new.map Peer.id)

theorem mem_ids_find {ps : List Peer} {i : Int} : (ps.find? (·.id == i)).isSome = true ↔ i ∈ ps.map Peer.id := by
  rw [List.find?_isSome, List.mem_map]
  simp

/-- Changing one of the new peers. -/
theorem Added.setPeer {s0 s : Srv} {done : List SrvCfg} {i : Int} {f : Peer → Peer} (hi : i ∉ s0.peers.map Peer.id)
    (hf : ∀ p, (f p).cfg = p.cfg ∧ (f p).matched = p.matched ∧ (f p).snpCtx = p.snpCtx) (h : Added s0 done s) :
    Added s0 done (s.setPeer (.member i) f) := by
  obtain ⟨new, h1, h2, h3, h4⟩ := h.peers
  have hids : ((new.map fun p => if p.id == i then f p else p).map Peer.id) = new.map Peer.id := by
    rw [List.map_map]
    refine List.map_congr_left fun p _ => ?_
    show (if p.id == i then f p else p).cfg.id = p.cfg.id
    split
    · rw [(hf p).1]
    · rfl
  refine ⟨h.id, h.catchingUp, h.log, h.trace, new.map fun p => if p.id == i then f p else p, ?_, by rw [hids]; exact h2, ?_,
    by rw [hids]; exact h4⟩
  · show s.peers.map _ = _
    rw [h1, List.map_append]
    congr 1
    conv => rhs; rw [← List.map_id s0.peers]
    refine List.map_congr_left fun p hp => ?_
    rw [if_neg]
    · rfl
    · intro he
      exact hi (List.mem_map.2 ⟨p, hp, by simpa using he⟩)
  · intro p hp
    obtain ⟨q, hq, rfl⟩ := List.mem_map.1 hp
    have := h3 q hq
    show (if q.id == i then f q else q).cfg ∈ done ∧ _
    split
    · rw [(hf q).1, (hf q).2.1, (hf q).2.2]; exact this
    · exact this

theorem Added.push {s0 s : Srv} {done : List SrvCfg} {c : SrvCfg} {p : Peer} (hc : c.id ∉ s0.peers.map Peer.id)
    (hp : p.cfg = c) (hm : p.matched = 0) (hx : p.snpCtx = none) (h : Added s0 done s) :
    Added s0 (done ++ [c]) (if (s.findPeer c.id).isSome then s else { s with peers := s.peers ++ [p] }) := by
  obtain ⟨new, h1, h2, h3, h4⟩ := h.peers
  by_cases hf : (s.findPeer c.id).isSome = true
  · rw [if_pos hf]
    refine ⟨h.id, h.catchingUp, h.log, h.trace, new, h1, h2, fun p hp => ?_, fun d hd => ?_⟩
    · exact ⟨List.mem_append_left _ (h3 p hp).1, (h3 p hp).2⟩
    · rcases List.mem_append.1 hd with hd | hd
      · exact h4 d hd
      · rw [List.mem_singleton.1 hd]
        have := mem_ids_find.1 hf
        rw [h1, List.map_append, List.mem_append] at this
        exact this.resolve_left hc
  · rw [if_neg hf]
    refine ⟨h.id, h.catchingUp, h.log, h.trace, new ++ [p], ?_, ?_, fun q hq => ?_, fun d hd => ?_⟩
    · show s.peers ++ [p] = _
      rw [h1, List.append_assoc]
    · rw [List.map_append, List.nodup_append]
      refine ⟨h2, by simp, ?_⟩
      intro a ha b hb he
      have hb' : b = c.id := by rw [List.mem_singleton.1 hb]; unfold Peer.id; rw [hp]
      refine hf (mem_ids_find.2 ?_)
      rw [h1, List.map_append, List.mem_append]
      exact .inr (by rw [← hb', ← he]; exact ha)
    · rcases List.mem_append.1 hq with hq | hq
      · exact ⟨List.mem_append_left _ (h3 q hq).1, (h3 q hq).2⟩
      · rw [List.mem_singleton.1 hq]
        exact ⟨List.mem_append_right _ (by rw [hp]; simp), hm, hx⟩
    · rw [List.map_append, List.mem_append]
      rcases List.mem_append.1 hd with hd | hd
      · exact .inl (h4 d hd)
      · rw [List.mem_singleton.1 hd]
        exact .inr (List.mem_singleton.2 (by unfold Peer.id; rw [hp]))

theorem Added.srvToJoin {s0 s : Srv} {done : List SrvCfg} (h : Added s0 done s) (j : Option Peer) :
    Added s0 done { s with srvToJoin := j } := ⟨h.id, h.catchingUp, h.log, h.trace, h.peers⟩

theorem addPeer_added {s0 s : Srv} {done : List SrvCfg} {c : SrvCfg} (hc : c.id ∉ s0.peers.map Peer.id)
    (h : Added s0 done s) : ∃ s', addPeer c s = (.ok ⟨⟩, s') ∧ Added s0 (done ++ [c]) s' := by
  unfold addPeer
  rw [bind_modify, bind_get]
  have h1 := h.push (p := { cfg := c, nextIdx := s.log.next, hbInterval := s.params.hbInterval }) hc rfl rfl rfl
  generalize (if (s.findPeer c.id).isSome then s else
    { s with peers := s.peers ++ [{ cfg := c, nextIdx := s.log.next, hbInterval := s.params.hbInterval }] }) = s1 at h1
  by_cases hl : s1.role = .leader
  · rw [if_pos hl]
    have e1 : enableHb (.member c.id) s1 = (.ok ⟨⟩, s1.setPeer (.member c.id) fun p =>
        { p with hbEnabled := true, hbInterval := s1.params.hbInterval, hbArmed := true }) := rfl
    rw [run_bind_ok e1]
    have h2 := h1.setPeer (f := fun p => { p with hbEnabled := true, hbInterval := s1.params.hbInterval, hbArmed := true })
      hc fun p => ⟨rfl, rfl, rfl⟩
    generalize s1.setPeer (.member c.id) (fun p =>
      { p with hbEnabled := true, hbInterval := s1.params.hbInterval, hbArmed := true }) = s2 at h2
    rcases hj : s1.srvToJoin with _ | j
    · exact ⟨s2, rfl, h2⟩
    · by_cases hji : j.id = c.id
      · simp only [if_pos hji]
        have h3 := h2.setPeer (f := fun p => { p with nextIdx := j.nextIdx }) hc fun p => ⟨rfl, rfl, rfl⟩
        exact ⟨_, rfl, h3.srvToJoin none⟩
      · simp only [if_neg hji]
        exact ⟨s2, rfl, h2⟩
  · rw [if_neg hl]
    exact ⟨s1, rfl, h1⟩

theorem addPeers_added (s0 : Srv) (cs : List SrvCfg) (hc : ∀ c ∈ cs, c.id ∉ s0.peers.map Peer.id) :
    ∃ s', forEach addPeer cs s0 = (.ok ⟨⟩, s') ∧ Added s0 cs s' :=
  forEach_ok cs [] s0 ⟨rfl, rfl, rfl, rfl, [], by simp⟩ fun _ _ _ ha h => addPeer_added (hc _ ha) h

/-- Without the servers `done`. -/
structure Removed (s0 : Srv) (done : List Int) (s : Srv) : Prop where
  id : s.id = s0.id
  catchingUp : s.catchingUp = s0.catchingUp
  log : s.log = s0.log
  trace : s.trace = s0.trace
  peers : s.peers = s0.peers.filter fun p => !done.contains p.id

theorem removePeer_removed {s0 s : Srv} {done : List Int} {c : Config} {i : Int}
    (hi : ¬(i = s0.id ∧ s0.catchingUp = false)) (h : Removed s0 done s) :
    ∃ s', removePeer c i s = (.ok ⟨⟩, s') ∧ Removed s0 (done ++ [i]) s' := by
  unfold removePeer
  rw [bind_get, if_neg (by rw [h.id, h.catchingUp]; exact hi)]
  refine ⟨_, rfl, h.id, h.catchingUp, h.log, h.trace, ?_⟩
  show s.peers.filter _ = _
  rw [h.peers, List.filter_filter]
  congr 1
  funext p
  by_cases hp : p.id = i
  · simp [hp]
  · simp [hp]

theorem removePeers_removed (s0 : Srv) (c : Config) (is : List Int) (hi : ∀ i ∈ is, ¬(i = s0.id ∧ s0.catchingUp = false)) :
    ∃ s', forEach (removePeer c) is s0 = (.ok ⟨⟩, s') ∧ Removed s0 is s' :=
  forEach_ok is [] s0 ⟨rfl, rfl, rfl, rfl, by rw [List.filter_eq_self.2]; simp⟩ fun _ _ _ ha h => removePeer_removed (hi _ ha) h

theorem forEach_append {α : Type} (f : α → R Unit) : ∀ (as bs : List α) (s : Srv),
    forEach f (as ++ bs) s = (forEach f as >>= fun _ => forEach f bs) s
  | [], bs, s => rfl
  | a :: as, bs, s => by
    show (f a >>= fun _ => forEach f (as ++ bs)) s = ((f a >>= fun _ => forEach f as) >>= fun _ => forEach f bs) s
    rcases h : f a s with ⟨e | u, s1⟩
    · rw [run_bind_err h, run_bind_err (by rw [run_bind_err h])]
    · rw [run_bind_ok h, forEach_append f as bs s1]
      rcases h2 : forEach f as s1 with ⟨e | u, s2⟩
      · rw [run_bind_err h2, run_bind_err (by rw [run_bind_ok h]; exact h2)]
      · rw [run_bind_ok h2, run_bind_ok (by rw [run_bind_ok h]; exact h2)]

theorem has_iff {c : Config} {i : Int} : c.has i = true ↔ ∃ x ∈ c.servers, x.id = i := by
  unfold Config.has
  rw [List.any_eq_true]
  simp

/-- The peers after `reconfigure`, for a server that stays. -/
theorem reconfigure_stays {s : Srv} {c : Config} (hs : s.id ∉ s.peers.map Peer.id)
    (hm : c.has s.id = true ∨ s.catchingUp = true) :
    ∃ s' new, reconfigure c s = (.ok ⟨⟩, s') ∧ s'.config = c ∧ s'.trace = s.trace ∧ s'.log = s.log ∧ s'.id = s.id ∧
      s'.catchingUp = s.catchingUp ∧
      s'.peers = (s.peers.filter fun p => c.has p.id) ++ new ∧ (new.map Peer.id).Nodup ∧
      (∀ p ∈ new, p.matched = 0 ∧ p.snpCtx = none ∧ p.id ≠ s.id ∧ p.id ∉ s.peers.map Peer.id ∧ p.cfg ∈ c.servers) ∧
      (∀ x ∈ c.servers, x.id ≠ s.id → x.id ∉ s.peers.map Peer.id → x.id ∈ new.map Peer.id) := by
  unfold reconfigure
  rw [bind_get]
  obtain ⟨s1, h1, h2⟩ := addPeers_added s (c.servers.filter fun x => (s.findPeer x.id).isNone && x.id != s.id) (by
    intro x hx hmem
    have := (List.mem_filter.1 hx).2
    rw [Bool.and_eq_true] at this
    have h3 := mem_ids_find.2 hmem
    have h4 : (s.findPeer x.id).isNone = true := this.1
    unfold Srv.findPeer at h4
    rw [Option.isNone_iff_eq_none] at h4
    rw [h4] at h3
    cases h3)
  rw [run_bind_ok h1]
  obtain ⟨s2, h3, h4⟩ := removePeers_removed s1 c
    (((s.peers.map Peer.id).filter fun i => !c.has i) ++ if c.has s.id then [] else [s.id]) (by
      intro i hi ⟨e1, e2⟩
      rw [h2.id] at e1
      rw [h2.catchingUp] at e2
      rcases List.mem_append.1 hi with hi | hi
      · rw [e1] at hi
        exact hs (List.mem_filter.1 hi).1
      · rcases hm with hm | hm
        · rw [if_pos hm] at hi; cases hi
        · rw [e2] at hm; cases hm)
  rw [run_bind_ok h3]
  obtain ⟨new, n1, n2, n3, n4⟩ := h2.peers
  have hnew : ∀ p ∈ new, p.id ≠ s.id ∧ p.id ∉ s.peers.map Peer.id ∧ p.cfg ∈ c.servers := by
    intro p hp
    obtain ⟨a, b⟩ := List.mem_filter.1 (n3 p hp).1
    rw [Bool.and_eq_true] at b
    refine ⟨by have := b.2; unfold Peer.id; simpa using this, ?_, a⟩
    intro hmem
    have h5 := mem_ids_find.2 hmem
    have h6 : (s.peers.find? (·.id == p.id)).isNone = true := b.1
    rw [Option.isNone_iff_eq_none] at h6
    rw [h6] at h5
    cases h5
  refine ⟨_, new, rfl, rfl, h4.trace.trans h2.trace, h4.log.trans h2.log, h4.id.trans h2.id,
    h4.catchingUp.trans h2.catchingUp, ?_, n2, fun p hp => ⟨(n3 p hp).2.1, (n3 p hp).2.2, hnew p hp⟩, ?_⟩
  · show s2.peers = _
    rw [h4.peers, n1, List.filter_append]
    congr 1
    · refine List.filter_congr fun p hp => ?_
      have hid : p.id ∈ s.peers.map Peer.id := List.mem_map_of_mem hp
      have hne : p.id ≠ s.id := fun h => hs (h ▸ hid)
      cases hh : c.has p.id with
      | true =>
        simp only [Bool.not_eq_true', List.contains_eq_mem, decide_eq_false_iff_not, List.mem_append]
        rintro (h | h)
        · have := (List.mem_filter.1 h).2
          rw [hh] at this; cases this
        · split at h
          · cases h
          · exact hne (List.mem_singleton.1 h)
      | false =>
        simp only [Bool.not_eq_false', List.contains_eq_mem, decide_eq_true_eq, List.mem_append]
        exact .inl (List.mem_filter.2 ⟨hid, by rw [hh]; rfl⟩)
    · rw [List.filter_eq_self]
      intro p hp
      obtain ⟨a, b, d⟩ := hnew p hp
      simp only [Bool.not_eq_true', List.contains_eq_mem, decide_eq_false_iff_not, List.mem_append]
      rintro (h | h)
      · exact b (List.mem_filter.1 h).1
      · split at h
        · cases h
        · exact a (List.mem_singleton.1 h)
  · intro x hx h1 h2
    refine n4 x (List.mem_filter.2 ⟨hx, ?_⟩)
    rw [Bool.and_eq_true]
    refine ⟨?_, by simpa using h1⟩
    unfold Srv.findPeer
    cases hf : s.peers.find? (·.id == x.id) with
    | none => rfl
    | some p => exact absurd (mem_ids_find.1 (by rw [hf]; rfl)) h2

/-- A server that is not in the configuration ends. -/
theorem reconfigure_leaves {s : Srv} {c : Config} (hs : s.id ∉ s.peers.map Peer.id) (hm : c.has s.id = false)
    (hc : s.catchingUp = false) :
    ∃ s', reconfigure c s = (.error (.exit 0), s') ∧ s'.trace = s.trace ++ [.saveConfig c, .exit 0] := by
  unfold reconfigure
  rw [bind_get]
  obtain ⟨s1, h1, h2⟩ := addPeers_added s (c.servers.filter fun x => (s.findPeer x.id).isNone && x.id != s.id) (by
    intro x hx hmem
    have := (List.mem_filter.1 hx).2
    rw [Bool.and_eq_true] at this
    have h3 := mem_ids_find.2 hmem
    have h4 : (s.findPeer x.id).isNone = true := this.1
    unfold Srv.findPeer at h4
    rw [Option.isNone_iff_eq_none] at h4
    rw [h4] at h3
    cases h3)
  rw [run_bind_ok h1, if_neg (by rw [hm]; simp)]
  obtain ⟨s2, h3, h4⟩ := removePeers_removed s1 c ((s.peers.map Peer.id).filter fun i => !c.has i) (by
      intro i hi ⟨e1, e2⟩
      rw [h2.id] at e1
      rw [e1] at hi
      exact hs (List.mem_filter.1 hi).1)
  have h5 : removePeer c s.id s2 = (.error (.exit 0), { s2 with trace := s2.trace ++ [.saveConfig c] ++ [.exit 0] }) := by
    unfold removePeer
    rw [bind_get, if_pos ⟨by rw [h4.id, h2.id], by rw [h4.catchingUp, h2.catchingUp]; exact hc⟩]
    rfl
  have h6 : forEach (removePeer c) [s.id] s2 =
      (.error (.exit 0), { s2 with trace := s2.trace ++ [.saveConfig c] ++ [.exit 0] }) := by
    show (removePeer c s.id >>= fun _ => forEach (removePeer c) []) s2 = _
    rw [run_bind_err h5]
  rw [run_bind_err (by rw [forEach_append, run_bind_ok h3]; exact h6)]
  exact ⟨_, rfl, by rw [h4.trace, h2.trace]; simp⟩

end Cs.Raft
