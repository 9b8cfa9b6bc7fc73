import Verif.Raft.Return
import Verif.Raft.PropsStand
import Verif.Raft.PropsMember
import Verif.Raft.PropsSnap

/-!
# C105: a server that has been told to end takes no further part
-/

namespace Cs.Raft
open Cs

/-! ## Without the call nothing is different -/

theorem removePeersR_ok (c : Config) : ∀ (ids : List Int) {s s' : Srv}, forEach (removePeer c) ids s = (.ok ⟨⟩, s') →
    removePeersR c ids s = (.ok true, s')
  | [], s, s', h => by cases h; rfl
  | i :: ids, s, s', h => by
    unfold forEach at h
    unfold removePeersR
    rw [run_bind] at h
    rcases hm : removePeer c i s with ⟨a | a, s1⟩
    · rw [hm] at h; cases h
    rw [hm] at h
    have h1 : removePeerR c i s = (.ok true, s1) := by
      unfold removePeer at hm
      unfold removePeerR
      rw [bind_get] at hm ⊢
      by_cases hc : i = s.id ∧ s.catchingUp = false
      · rw [if_pos hc] at hm; cases hm
      · rw [if_neg hc] at hm ⊢; cases hm; rfl
    rw [run_bind_ok h1, if_pos rfl]
    exact removePeersR_ok c ids h

theorem reconfigureR_ok {c : Config} {s s' : Srv} (h : reconfigure c s = (.ok ⟨⟩, s')) : reconfigureR c s = (.ok ⟨⟩, s') := by
  unfold reconfigure at h
  unfold reconfigureR
  rw [bind_get, run_bind] at h
  rw [bind_get]
  rcases h1 : forEach addPeer (c.servers.filter fun x => (s.findPeer x.id).isNone && x.id != s.id) s with ⟨a | a, s1⟩
  · rw [h1] at h; cases h
  rw [h1] at h
  rw [run_bind_ok h1]
  dsimp only at h
  rw [run_bind] at h
  rcases h2 : forEach (removePeer c) (((s.peers.map Peer.id).filter fun i => !c.has i) ++ if c.has s.id then [] else [s.id]) s1 with ⟨a | a, s2⟩
  · rw [h2] at h; cases h
  rw [h2] at h
  rw [run_bind_ok (removePeersR_ok c _ h2), if_pos rfl]
  exact h

theorem commitConfR_ok {c : Config} {s s' : Srv} (h : commitConf c s = (.ok ⟨⟩, s')) : commitConfR c s = (.ok ⟨⟩, s') := by
  unfold commitConf at h
  unfold commitConfR
  rw [bind_emit, bind_modify, bind_get] at h ⊢
  by_cases hc : s.config.logIdx < c.logIdx
  · dsimp only at h ⊢
    rw [if_pos hc, run_bind] at h
    rw [if_pos hc]
    split at h
    · rename_i h2
      rw [run_bind_ok (reconfigureR_ok h2)]
      exact h
    · cases h
  · dsimp only at h ⊢
    rw [if_neg hc] at h ⊢
    exact h

theorem confForSnapR_ok {i : Nat} {c : Config} {s s' : Srv} (h : confForSnap i s = (.ok c, s')) : confForSnapR i s = (.ok (some c), s') := by
  unfold confForSnap at h
  unfold confForSnapR
  rw [bind_get, run_bind] at h
  rw [bind_get]
  rcases h1 : findConf i (s.log.ents.length + 2) s.config s with ⟨a | a, s1⟩
  · rw [h1] at h; cases h
  rw [h1] at h
  rw [run_bind_ok h1]
  dsimp only at h
  by_cases c1 : i < a.logIdx ∧ 0 < a.prevLogIdx ∧ a.prevLogIdx < s.log.start
  · rw [if_pos c1] at h ⊢
    cases hl : s.lastSnap with
    | none => rw [hl] at h; cases h
    | some snp => rw [hl] at h; cases h; rfl
  rw [if_neg c1] at h ⊢
  by_cases c2 : i < a.logIdx ∧ a.prevLogIdx = 0
  · rw [if_pos c2] at h; cases h
  · rw [if_neg c2] at h ⊢; cases h; rfl

theorem confForSnapR_thrown {i : Nat} {s s' : Srv} (h : confForSnap i s = (.error .thrown, s')) : confForSnapR i s = (.error .thrown, s') := by
  unfold confForSnap at h
  unfold confForSnapR
  rw [bind_get, run_bind] at h
  rw [bind_get]
  rcases h1 : findConf i (s.log.ents.length + 2) s.config s with ⟨a | a, s1⟩
  · rw [h1] at h; cases h; rw [run_bind_err h1]
  rw [h1] at h
  dsimp only at h
  by_cases c1 : i < a.logIdx ∧ 0 < a.prevLogIdx ∧ a.prevLogIdx < s.log.start
  · rw [if_pos c1] at h
    cases hl : s.lastSnap with
    | none => rw [hl] at h; cases h
    | some snp => rw [hl] at h; cases h
  rw [if_neg c1] at h
  by_cases c2 : i < a.logIdx ∧ a.prevLogIdx = 0
  · rw [if_pos c2] at h; cases h
  · rw [if_neg c2] at h; cases h

theorem startSnapshotR_same {i : Nat} {s : Srv} (h : ∀ c, (startSnapshot i s).1 ≠ .error (.exit c)) : 
    startSnapshotR i s = startSnapshot i s ∨ (startSnapshot i s).1 = .error .ub := by
  unfold startSnapshot at h ⊢
  unfold startSnapshotR
  rcases h1 : confForSnap i s with ⟨a | a, s1⟩
  · rw [run_bind_err h1] at h ⊢
    cases a with
    | thrown => rw [run_bind_err (confForSnapR_thrown h1)]; exact .inl rfl
    | exit c => exact absurd rfl (h c)
    | ub => exact .inr rfl
  · rw [run_bind_ok h1, run_bind_ok (confForSnapR_ok h1)]; exact .inl rfl

theorem snapshotAndCompactR_ok {i : Nat} {s s' : Srv} (h : snapshotAndCompact i s = (.ok ⟨⟩, s')) : snapshotAndCompactR i s = (.ok ⟨⟩, s') := by
  unfold snapshotAndCompact at h
  unfold snapshotAndCompactR
  rw [bind_get] at h ⊢
  by_cases hw : wantsSnapshot s i = true
  · rw [if_pos hw, bind_modify] at h ⊢
    unfold catchThrown at h ⊢
    have hx : ∀ c, (startSnapshot i { s with snpInProgress := true }).1 ≠ .error (.exit c) := by
      intro c hc
      rcases h1 : startSnapshot i { s with snpInProgress := true } with ⟨a, s1⟩
      rw [h1] at h hc
      have hc : a = .error (.exit c) := hc
      subst hc
      cases h
    rcases startSnapshotR_same hx with h1 | h1
    · rw [h1]; exact h
    · rcases h2 : startSnapshot i { s with snpInProgress := true } with ⟨a, s1⟩
      rw [h2] at h h1
      have h1 : a = .error .ub := h1
      subst h1
      cases h
  · rw [if_neg hw] at h ⊢; exact h

/-- A step of the commit thread that does not end the process is the same. -/
theorem apply_same {s s' : Srv} (h : applyOne s = (.ok ⟨⟩, s')) : applyOneR (fun _ _ => false) s = (.ok ⟨⟩, s') := by
  have hb : applyBodyR (fun _ _ => false) s = (.ok ⟨⟩, s') := by
    unfold applyOne at h
    unfold applyBodyR
    rw [bind_get] at h ⊢
    by_cases hc : s.canApply = true
    · rw [if_pos hc, bind_modify] at h ⊢
      cases he : s.log.get? (s.smCommit + 1) with
      | none =>
        have : entryToApply (s.smCommit + 1) { s with smCommit := s.smCommit + 1 } = (if s.smCommit + 1 < s.log.start then die (-1) else throw .ub : R Entry) { s with smCommit := s.smCommit + 1 } := by
          unfold entryToApply
          rw [bind_get, he]
        rw [run_bind, this] at h
        by_cases hl : s.smCommit + 1 < s.log.start
        · rw [if_pos hl] at h; cases h
        · rw [if_neg hl] at h; cases h
      | some e =>
        rw [run_bind_ok (entryToApply_some (s := { s with smCommit := s.smCommit + 1 }) he)] at h
        rw [run_bind_ok (entryAt_some (s := { s with smCommit := s.smCommit + 1 }) he)]
        rcases h1 : applyEntry (s.smCommit + 1) e { s with smCommit := s.smCommit + 1 } with ⟨a | a, s1⟩
        · rw [run_bind_err h1] at h; cases h
        rw [run_bind_ok h1] at h
        have h2 : applyEntryR (fun _ _ => false) (s.smCommit + 1) e { s with smCommit := s.smCommit + 1 } = (.ok ⟨⟩, s1) := by
          unfold applyEntry at h1
          unfold applyEntryR
          cases hv : e.val <;> rw [hv] at h1
          case conf c => exact commitConfR_ok h1
          case app d => exact h1
          all_goals exact h1
        rw [run_bind_ok h2]
        exact snapshotAndCompactR_ok h
    · rw [if_neg hc] at h ⊢; exact h
  unfold applyOneR catchThrown
  rw [hb]

/-- An expiry of the election timer that does not end the process is the same. -/
theorem timeout_same {s : Srv} (h : ∀ c, (handleElectionTimeout s).1 ≠ .error (.exit c)) : handleElectionTimeoutR s = handleElectionTimeout s := by
  unfold handleElectionTimeout at h ⊢
  unfold handleElectionTimeoutR
  rw [bind_modify, bind_get] at h
  rw [bind_modify, bind_get, bind_modify, bind_get]
  dsimp only at h ⊢
  by_cases h1 : 0 < s.stepsToDown
  · rw [if_pos h1, bind_modify] at h
    rw [if_pos h1, if_pos h1, bind_modify, bind_modify]
    by_cases h2 : s.stepsToDown - 1 = 0
    · exfalso
      rw [if_pos h2] at h
      refine h (-1) ?_
      unfold leaveConfig
      rw [run_bind, bind_get]
      split
      · rename_i hm
        rfl
      · rename_i hm
        exfalso
        split at hm <;> cases hm
    · rw [if_neg h2, if_neg h2]
  rw [if_neg h1] at h
  rw [if_neg h1, if_neg h1]
  by_cases h3 : s.catchingUp = true
  · rw [if_pos h3, if_pos h3]
  rw [if_neg h3] at h
  rw [if_neg h3, if_neg h3]
  by_cases h4 : s.role = .leader
  · exfalso
    rw [if_pos h4] at h
    exact h (-1) rfl
  rw [if_neg h4, if_neg h4]
  rfl

/-! ## A server that has been removed -/

/-- The next entry to apply is a configuration that has all other members of the server, and not the server itself. -/
structure Expelled (s : Srv) (t : Nat) (c : Config) : Prop where
  committed : s.smCommit < s.quickCommit
  stored : s.smCommit < s.log.next - 1
  entry : s.log.get? (s.smCommit + 1) = some ⟨t, .conf c⟩
  newer : s.config.logIdx < c.logIdx
  others : ∀ p ∈ s.peers, ∃ x ∈ c.servers, x.id = p.id
  noMore : ∀ x ∈ c.servers, ∃ p ∈ s.peers, p.id = x.id
  self : ∀ x ∈ c.servers, x.id ≠ s.id
  joined : s.catchingUp = false
  noSnap : wantsSnapshot s (s.smCommit + 1) = false

/-- C105 fails: a server that applies the configuration it has been removed by, and has called `system_exit` for that, is exactly as it was
before, but for the index of the last applied entry. In particular it keeps its role, its term, its timers, and the other servers as its peers. -/
theorem removed_server_stays {s : Srv} {t : Nat} {c : Config} (no : Refuses) (h : Expelled s t c) :
    Input.apply.runR no { s with trace := [] } = (.ok ⟨⟩, { s with
      smCommit := s.smCommit + 1, configChanging := false, trace := [.saveConfig c, .saveConfig c, .exit 0] }) := by
  have hself : c.has s.id = false := by
    cases hh : c.has s.id
    · rfl
    · obtain ⟨x, hx, hxi⟩ := has_iff.1 hh
      exact absurd hxi (h.self x hx)
  have e1 : (c.servers.filter fun x => (s.findPeer x.id).isNone && x.id != s.id) = [] := by
    rw [List.filter_eq_nil_iff]
    intro x hx hn
    rw [Bool.and_eq_true] at hn
    obtain ⟨p, hp, hpi⟩ := h.noMore x hx
    have h3 : (s.peers.find? (·.id == x.id)).isSome := mem_ids_find.2 (List.mem_map.2 ⟨p, hp, hpi⟩)
    have h4 : (s.findPeer x.id).isNone = true := hn.1
    unfold Srv.findPeer at h4
    rw [Option.isNone_iff_eq_none] at h4
    rw [h4] at h3
    cases h3
  have e2 : ((s.peers.map Peer.id).filter fun i => !c.has i) = [] := by
    rw [List.filter_eq_nil_iff]
    intro i hi hn
    obtain ⟨p, hp, rfl⟩ := List.mem_map.1 hi
    rw [has_iff.2 (h.others p hp)] at hn
    cases hn
  have hr : ∀ s1 : Srv, s1.id = s.id → s1.peers = s.peers → s1.catchingUp = false →
      reconfigureR c s1 = (.ok ⟨⟩, { s1 with trace := s1.trace ++ [.saveConfig c] ++ [.exit 0] }) := by
    intro s1 g1 g2 g3
    unfold reconfigureR
    have e1' : (c.servers.filter fun x => (s1.findPeer x.id).isNone && x.id != s1.id) = [] := by
      unfold Srv.findPeer at e1 ⊢; rw [g1, g2]; exact e1
    have e2' : (((s1.peers.map Peer.id).filter fun i => !c.has i) ++ if c.has s1.id then [] else [s1.id]) = [s1.id] := by
      rw [g2, e2, g1, hself]; rfl
    rw [bind_get, e1', e2', run_bind_ok (show forEach addPeer [] s1 = (.ok ⟨⟩, s1) from rfl)]
    have h5 : removePeersR c [s1.id] s1 = (.ok false, { s1 with trace := s1.trace ++ [.saveConfig c] ++ [.exit 0] }) := by
      show (removePeerR c s1.id >>= fun on => if on = true then removePeersR c [] else pure false) s1 = _
      have h6 : removePeerR c s1.id s1 = (.ok false, { s1 with trace := s1.trace ++ [.saveConfig c] ++ [.exit 0] }) := by
        unfold removePeerR
        rw [bind_get, if_pos ⟨rfl, g3⟩]
        rfl
      rw [run_bind_ok h6]
      rfl
    rw [run_bind_ok h5]
    rfl
  have hb : applyBodyR no { s with trace := [] } = (.ok ⟨⟩, { s with
      smCommit := s.smCommit + 1, configChanging := false, trace := [.saveConfig c, .saveConfig c, .exit 0] }) := by
    unfold applyBodyR
    rw [bind_get, if_pos (by unfold Srv.canApply; simp [h.committed, h.stored]), bind_modify,
      run_bind_ok (entryAt_some (s := { s with smCommit := s.smCommit + 1, trace := [] }) h.entry)]
    have h7 : applyEntryR no (s.smCommit + 1) ⟨t, .conf c⟩ { s with smCommit := s.smCommit + 1, trace := [] } = (.ok ⟨⟩, { s with
        smCommit := s.smCommit + 1, configChanging := false, trace := [.saveConfig c, .saveConfig c, .exit 0] }) := by
      show commitConfR c _ = _
      unfold commitConfR
      rw [bind_emit, bind_modify, bind_get]
      dsimp only
      rw [if_pos h.newer, run_bind_ok (hr { s with
        smCommit := s.smCommit + 1, configChanging := false, trace := [] ++ [.saveConfig c] } rfl rfl h.joined)]
      show (Except.ok PUnit.unit, { s with
        smCommit := s.smCommit + 1, configChanging := false, trace := [.saveConfig c, .saveConfig c, .exit 0],
        catchingUp := if c.has s.id then false else s.catchingUp }) = _
      rw [hself, if_neg Bool.false_ne_true]
    rw [run_bind_ok h7]
    unfold snapshotAndCompactR
    rw [bind_get, if_neg]
    · rfl
    · intro hw
      have h8 := h.noSnap
      unfold wantsSnapshot at hw h8
      rw [hw] at h8
      cases h8
  show applyOneR no _ = _
  unfold applyOneR catchThrown
  rw [hb]

/-- C105 fails: so, unless it is a leader, when its timer expires it asks all others for their votes in a new term. -/
theorem removed_server_stands {s s1 s2 : Srv} {t : Nat} {c : Config} (no : Refuses) (h : Expelled s t c) (hl : s.role ≠ .leader)
    (hd : s.stepsToDown ≤ 0) (hp : s.peers ≠ []) (hv : ¬ (s.params.prevote = true ∧ s.role = .follower))
    (h1 : Input.apply.runR no { s with trace := [] } = (.ok ⟨⟩, s1)) (h2 : Input.electionTimeout.runR no { s1 with trace := [] } = (.ok ⟨⟩, s2)) :
    .exit 0 ∈ s1.trace ∧ ∀ x ∈ c.servers, ∃ r, .send r ∈ s2.trace ∧ r.type = .voteReq ∧ r.dst = x.id ∧ r.term = s.term + 1 ∧ r.src = s.id := by
  rw [removed_server_stays no h] at h1
  cases h1
  refine ⟨by simp, fun x hx => ?_⟩
  obtain ⟨p, hp1, hp2⟩ := h.noMore x hx
  have h3 : handleElectionTimeout { s with smCommit := s.smCommit + 1, configChanging := false, trace := [] } = (.ok ⟨⟩, s2) := by
    have h2 : handleElectionTimeoutR { s with smCommit := s.smCommit + 1, configChanging := false, trace := [] } = (.ok ⟨⟩, s2) := h2
    unfold handleElectionTimeoutR at h2
    unfold handleElectionTimeout
    rw [bind_modify, bind_get, if_neg (show ¬ 0 < s.stepsToDown by omega),
      if_neg (show ¬ s.catchingUp = true by rw [h.joined]; exact Bool.false_ne_true), if_neg (show ¬ s.role = .leader from hl)] at h2 ⊢
    exact h2
  obtain ⟨r, r1, r2, r3, r4, r5⟩ := timeout_stands (s := { s with smCommit := s.smCommit + 1, configChanging := false, trace := [] })
    hl hd h.joined hp hv h3 p hp1
  exact ⟨r, r1, r2, r3.trans hp2, r4, r5⟩

/-! ## A command that the state machine refuses -/

/-- C105 fails: when the state machine throws on a command, the commit thread calls `system_exit` and goes on with the next command; the
command is never given to the state machine again, as the index of the last applied entry has been advanced. -/
theorem refused_command_skipped {s : Srv} {e1 e2 : Entry} {d1 d2 : Nat} (no : Refuses) (hc : s.smCommit + 1 < s.quickCommit)
    (hn : s.smCommit + 1 < s.log.next - 1) (h1 : s.log.get? (s.smCommit + 1) = some e1) (h2 : s.log.get? (s.smCommit + 2) = some e2)
    (a1 : e1.val = .app d1) (a2 : e2.val = .app d2) (n1 : no (s.smCommit + 1) e1 = true) (n2 : no (s.smCommit + 2) e2 = false)
    (hs : s.params.snpDistance = 0) :
    ∃ s1 s2, Input.apply.runR no { s with trace := [] } = (.ok ⟨⟩, s1) ∧ s1.trace = [.exit (-1)] ∧ s1.smCommit = s.smCommit + 1 ∧
      Input.apply.runR no { s1 with trace := [] } = (.ok ⟨⟩, s2) ∧ s2.trace = [.commit (s.smCommit + 2) e2] ∧ s2.smCommit = s.smCommit + 2 := by
  refine ⟨{ s with smCommit := s.smCommit + 1, trace := [.exit (-1)] },
    { s with smCommit := s.smCommit + 2, trace := [.commit (s.smCommit + 2) e2] }, ?_, rfl, rfl, ?_, rfl, rfl⟩
  · show applyOneR no _ = _
    have hb : applyBodyR no { s with trace := [] } = (.error .thrown, { s with smCommit := s.smCommit + 1, trace := [] }) := by
      unfold applyBodyR
      rw [bind_get, if_pos (by unfold Srv.canApply; simp; omega), bind_modify,
        run_bind_ok (entryAt_some (s := { s with smCommit := s.smCommit + 1, trace := [] }) h1)]
      refine run_bind_err ?_
      unfold applyEntryR
      rw [a1]
      dsimp only
      rw [if_pos n1]
      rfl
    unfold applyOneR catchThrown
    rw [hb]
    rfl
  · show applyOneR no _ = _
    have hb : applyBodyR no { s with smCommit := s.smCommit + 1, trace := [] } =
        (.ok ⟨⟩, { s with smCommit := s.smCommit + 2, trace := [.commit (s.smCommit + 2) e2] }) := by
      unfold applyBodyR
      rw [bind_get, if_pos (by unfold Srv.canApply; simp; omega), bind_modify,
        run_bind_ok (entryAt_some (s := { s with smCommit := s.smCommit + 2, trace := [] }) h2)]
      have h3 : applyEntryR no (s.smCommit + 1 + 1) e2 { s with smCommit := s.smCommit + 2, trace := [] } =
          (.ok ⟨⟩, { s with smCommit := s.smCommit + 2, trace := [.commit (s.smCommit + 2) e2] }) := by
        unfold applyEntryR
        rw [a2]
        dsimp only
        rw [if_neg (by rw [n2]; exact Bool.false_ne_true)]
        rfl
      rw [run_bind_ok h3]
      unfold snapshotAndCompactR
      rw [bind_get, if_neg]
      · rfl
      · unfold wantsSnapshot
        simp [hs]
    unfold applyOneR catchThrown
    rw [hb]

/-! ## Requests that could not be made -/

theorem chooseSnapR_exit {r : PeerRef} {l : Nat} {c : Int} {s s' : Srv} (h : chooseSnap r l s = (.error (.exit c), s')) :
    chooseSnapR r l s = (.ok false, s') := by
  unfold chooseSnap at h
  unfold chooseSnapR
  rw [bind_get] at h ⊢
  cases hp : s.peer r with
  | none => rw [run_bind_err (getPeer_none hp)] at h; cases h
  | some p =>
    rw [run_bind_ok (getPeer_some hp)] at h ⊢
    have hx : ∀ snp, s.lastSnap = some snp → (if snp.lastIdx < l then die (-1) else if snp.size < 1 then die (-1) else
          modPeer r fun p => { p with snpCtx := some (snp, 0) } : R Unit) s = (.error (.exit c), s') →
        (if snp.lastIdx < l then do told (-1); pure false else if snp.size < 1 then do told (-1); pure false else do
          modPeer r fun p => { p with snpCtx := some (snp, 0) }
          pure true : R Bool) s = (.ok false, s') := by
      intro snp hl h
      by_cases c1 : snp.lastIdx < l
      · rw [if_pos c1] at h ⊢; cases h; rfl
      rw [if_neg c1] at h ⊢
      by_cases c2 : snp.size < 1
      · rw [if_pos c2] at h ⊢; cases h; rfl
      rw [if_neg c2] at h
      cases h
    cases hc : p.snpCtx with
    | none =>
      rw [hc, if_pos rfl] at h
      rw [if_pos rfl]
      cases hl : s.lastSnap with
      | none => rw [hl] at h; cases h
      | some snp => rw [hl] at h; exact hx snp hl h
    | some q =>
      obtain ⟨q1, q2⟩ := q
      rw [hc] at h
      cases hl : s.lastSnap with
      | none => rw [hl] at h; cases h
      | some snp =>
        rw [hl] at h
        dsimp only at h ⊢
        by_cases hd : decide (q1.lastIdx < snp.lastIdx) = true
        · rw [if_pos hd] at h ⊢
          exact hx snp hl h
        · rw [if_neg hd] at h; cases h

theorem chooseSnapR_ok {r : PeerRef} {l : Nat} {u : Unit} {s s' : Srv} (h : chooseSnap r l s = (.ok u, s')) :
    chooseSnapR r l s = (.ok true, s') := by
  unfold chooseSnap at h
  unfold chooseSnapR
  rw [bind_get] at h ⊢
  cases hp : s.peer r with
  | none => rw [run_bind_err (getPeer_none hp)] at h; cases h
  | some p =>
    rw [run_bind_ok (getPeer_some hp)] at h ⊢
    have hx : ∀ snp, s.lastSnap = some snp → (if snp.lastIdx < l then die (-1) else if snp.size < 1 then die (-1) else
          modPeer r fun p => { p with snpCtx := some (snp, 0) } : R Unit) s = (.ok u, s') →
        (if snp.lastIdx < l then do told (-1); pure false else if snp.size < 1 then do told (-1); pure false else do
          modPeer r fun p => { p with snpCtx := some (snp, 0) }
          pure true : R Bool) s = (.ok true, s') := by
      intro snp hl h
      by_cases c1 : snp.lastIdx < l
      · rw [if_pos c1] at h; cases h
      rw [if_neg c1] at h ⊢
      by_cases c2 : snp.size < 1
      · rw [if_pos c2] at h; cases h
      rw [if_neg c2] at h ⊢
      cases h
      rfl
    cases hc : p.snpCtx with
    | none =>
      rw [hc, if_pos rfl] at h
      rw [if_pos rfl]
      cases hl : s.lastSnap with
      | none => rw [hl] at h; cases h
      | some snp => rw [hl] at h; exact hx snp hl h
    | some q =>
      obtain ⟨q1, q2⟩ := q
      rw [hc] at h
      cases hl : s.lastSnap with
      | none => rw [hl] at h; cases h; rfl
      | some snp =>
        rw [hl] at h
        dsimp only at h ⊢
        by_cases hd : decide (q1.lastIdx < snp.lastIdx) = true
        · rw [if_pos hd] at h ⊢
          exact hx snp hl h
        · rw [if_neg hd] at h ⊢; cases h; rfl

theorem syncReqR_null {r : PeerRef} {l t ci : Nat} {c : Int} {s s' : Srv} (h : createSyncSnapshotReq r l t ci s = (.error (.exit c), s')) :
    createSyncSnapshotReqR r l t ci s = (.ok none, s') := by
  unfold createSyncSnapshotReq at h
  unfold createSyncSnapshotReqR
  rcases h1 : chooseSnap r l s with ⟨a | a, s1⟩
  · rw [run_bind_err h1] at h
    cases h
    rw [run_bind_ok (chooseSnapR_exit h1), if_neg Bool.false_ne_true]
    rfl
  rw [run_bind_ok h1, bind_get] at h
  rw [run_bind_ok (chooseSnapR_ok h1), if_pos rfl]
  unfold blockReqR
  rw [bind_get]
  cases hp : s1.peer r with
  | none => rw [run_bind_err (getPeer_none hp)] at h; cases h
  | some p =>
    rw [run_bind_ok (getPeer_some hp)] at h ⊢
    cases hc : p.snpCtx with
    | none => rw [hc] at h; cases h
    | some q =>
      obtain ⟨q1, q2⟩ := q
      rw [hc] at h
      dsimp only at h ⊢
      by_cases c1 : min (blockSize s1.params) (toI32 (subU64 q1.size q2)) < 0
      · rw [if_pos c1] at h; cases h
      rw [if_neg c1] at h ⊢
      by_cases c2 : s1.env.short q1 q2 (min (blockSize s1.params) (toI32 (subU64 q1.size q2))).toNat
      · rw [if_pos c2] at h ⊢; cases h; rfl
      · rw [if_neg c2] at h; cases h

/-- C105 fails: when no request can be made for a member and `system_exit` has been called for that, a null pointer is used as the
request. (The case that the member's next entry is the first one of the log is `wrong_term_used`.) -/
theorem null_request_used {s s' : Srv} {j : Int} {p : Peer} {c : Int} (hp : s.findPeer j = some p)
    (hn : (if p.nextIdx = 0 then s.log.next else p.nextIdx) ≠ s.log.start) (h : requestAppend (.member j) s = (.error (.exit c), s')) :
    (requestAppendR (.member j) s).1 = .error .ub := by
  unfold requestAppend at h
  unfold requestAppendR
  rw [run_bind_ok (getPeer_some (r := .member j) hp)] at h ⊢
  by_cases hb : p.busy = true
  · rw [if_pos hb] at h; cases h
  rw [if_neg hb, bind_modPeer] at h ⊢
  have f1 : (s.setPeer (.member j) fun p => { p with busy := true }).findPeer j = some { p with busy := true } := by
    rw [find_setPeer s j (fun p => { p with busy := true }) (fun _ => rfl), hp]; rfl
  have hl : (s.setPeer (.member j) fun p => { p with busy := true }).log = s.log := rfl
  generalize (s.setPeer (.member j) fun p => { p with busy := true }) = s1 at *
  rcases hc : createAppendReq (.member j) s1 with ⟨a | a, s2⟩
  · rw [run_bind_err hc] at h
    cases h
    have : createAppendReqR (.member j) s1 = (.ok none, s') := by
      unfold createAppendReq at hc
      unfold createAppendReqR
      rw [bind_get, bind_modPeer] at hc ⊢
      have f2 : (s1.setPeer (.member j) fun p => if p.nextIdx = 0 then { p with nextIdx := s1.log.next } else p).findPeer j =
          some (if p.nextIdx = 0 then { p with busy := true, nextIdx := s1.log.next } else { p with busy := true }) := by
        rw [find_setPeer _ _ _ (by intro p; split <;> rfl), f1]; rfl
      have hni : (if p.nextIdx = 0 then { p with busy := true, nextIdx := s1.log.next } else { p with busy := true }).nextIdx =
          if p.nextIdx = 0 then s.log.next else p.nextIdx := by rw [hl]; split <;> rfl
      generalize (if p.nextIdx = 0 then { p with busy := true, nextIdx := s1.log.next } else { p with busy := true }) = p2 at f2 hni
      rw [← hni] at hn
      have hl2 : (s1.setPeer (.member j) fun p => if p.nextIdx = 0 then { p with nextIdx := s1.log.next } else p).log = s1.log := rfl
      generalize (s1.setPeer (.member j) fun p => if p.nextIdx = 0 then { p with nextIdx := s1.log.next } else p) = s3 at *
      rw [run_bind_ok (getPeer_some (r := .member j) f2)] at hc ⊢
      by_cases c1 : s1.log.next ≤ p2.nextIdx - 1
      · rw [if_pos c1] at hc ⊢; cases hc; rfl
      rw [if_neg c1] at hc ⊢
      by_cases c2 : 0 < p2.nextIdx - 1 ∧ p2.nextIdx - 1 < s1.log.start - 1
      · rw [if_pos c2] at hc ⊢
        exact syncReqR_null hc
      rw [if_neg c2] at hc
      exfalso
      unfold appendReqFrom at hc
      cases ht : termFor s3 (p2.nextIdx - 1) with
      | none =>
        rcases termForLog_none ht with ⟨_, h1⟩ | ⟨h1, h2, _⟩
        · rw [run_bind_err h1] at hc; cases hc
        · rw [hl2] at h1
          rw [hl] at h1 c2
          omega
      | some t =>
        rw [run_bind_ok (termForLog_some ht)] at hc
        unfold entriesFrom at hc
        rw [run_bind, bind_get] at hc
        split at hc
        · rename_i hm
          rw [bind_get] at hc
          cases hq : (‹Srv› : Srv).peer (.member j) with
          | none => rw [run_bind_err (getPeer_none hq)] at hc; cases hc
          | some q => rw [run_bind_ok (getPeer_some hq)] at hc; cases hc
        · rename_i hm
          split at hm
          · cases hm
          · split at hm
            · cases hm; cases hc
            · cases hm
    rw [run_bind_ok this]
    rfl
  · rw [run_bind_ok hc] at h
    cases h

/-- C105 fails: the term of an entry in front of the log is taken to be that of the snapshot, whatever its index is, after `system_exit`
has been called because it is another one. -/
theorem wrong_term_used {s : Srv} {i : Nat} {snp : Snap} (h0 : i ≠ 0) (h1 : i < s.log.start) (h2 : s.smSnap = some snp) (h3 : i ≠ snp.lastIdx) :
    termForLogR i s = (.ok snp.lastTerm, { s with trace := s.trace ++ [.exit (-1)] }) := by
  have : termForLogR i s = (told (-1) >>= fun _ => pure snp.lastTerm : R Nat) s := by
    unfold termForLogR
    rw [bind_get, if_neg h0, if_neg (by omega), h2]
    dsimp only
    rw [if_pos h3]
  rw [this]
  rfl

/-- C105 fails: without a snapshot a null pointer is used. -/
theorem no_term_undefined {s : Srv} {i : Nat} (h0 : i ≠ 0) (h1 : i < s.log.start) (h2 : s.smSnap = none) :
    (termForLogR i s).1 = .error .ub := by
  unfold termForLogR
  rw [bind_get, if_neg h0, if_neg (by omega), h2]
  rfl

/-! ## Snapshots -/

theorem findConf_shape (i : Nat) : ∀ (n : Nat) (c : Config) (s : Srv),
    (findConf i n c s).2 = s ∧ ∀ k, (findConf i n c s).1 ≠ .error (.exit k)
  | 0, c, s => ⟨rfl, fun _ h => (by cases h)⟩
  | n + 1, c, s => by
    unfold findConf
    rw [bind_get]
    by_cases hc : i < c.logIdx ∧ s.log.start ≤ c.prevLogIdx
    · rw [if_pos hc, run_bind]
      unfold entryAt
      rw [bind_get]
      cases hg : s.log.get? c.prevLogIdx with
      | none => exact ⟨rfl, fun _ h => (by
          by_cases hx : c.prevLogIdx < s.log.start
          · have h : (Except.error (if c.prevLogIdx < s.log.start then Fault.thrown else Fault.ub) : Except Fault Config) = _ := h
            rw [if_pos hx] at h; cases h
          · have h : (Except.error (if c.prevLogIdx < s.log.start then Fault.thrown else Fault.ub) : Except Fault Config) = _ := h
            rw [if_neg hx] at h; cases h)⟩
      | some e =>
        obtain ⟨t, v⟩ := e
        cases v
        case conf c' => exact findConf_shape i n c' s
        all_goals exact ⟨rfl, fun _ h => (by cases h)⟩
    · rw [if_neg hc]
      exact ⟨rfl, fun _ h => (by cases h)⟩

/-- C105 fails: when the configuration for a snapshot cannot be found, `snp_in_progress_` stays set. So there is never another snapshot
(`wantsSnapshot` is false as long as it is set, and only the end of a snapshot resets it). -/
theorem snapshot_stuck {s s' : Srv} {i : Nat} {c : Int} (h : snapshotAndCompact i s = (.error (.exit c), s')) :
    snapshotAndCompactR i s = (.ok ⟨⟩, s') ∧ s'.snpInProgress = true ∧ ∀ k, wantsSnapshot s' k = false := by
  unfold snapshotAndCompact at h
  unfold snapshotAndCompactR
  rw [bind_get] at h ⊢
  by_cases hw : wantsSnapshot s i = true
  · rw [if_pos hw, bind_modify] at h ⊢
    unfold catchThrown at h ⊢
    have key : ∀ s0 s1 : Srv, startSnapshot i s0 = (.error (.exit c), s1) → startSnapshotR i s0 = (.ok ⟨⟩, s1) ∧ s1.snpInProgress = s0.snpInProgress := by
      intro s0 s1 h
      unfold startSnapshot at h
      unfold startSnapshotR
      rcases h1 : confForSnap i s0 with ⟨a | a, s2⟩
      · rw [run_bind_err h1] at h
        cases h
        have h2 : confForSnapR i s0 = (.ok none, s1) ∧ s1.snpInProgress = s0.snpInProgress := by
          unfold confForSnap at h1
          unfold confForSnapR
          rw [bind_get] at h1 ⊢
          rcases h2 : findConf i (s0.log.ents.length + 2) s0.config s0 with ⟨b | b, s3⟩
          · rw [run_bind_err h2] at h1
            cases h1
            exact absurd (by rw [h2]) ((findConf_shape i (s0.log.ents.length + 2) s0.config s0).2 c)
          rw [run_bind_ok h2] at h1 ⊢
          have h3 : s3 = s0 := by
            have := (findConf_shape i (s0.log.ents.length + 2) s0.config s0).1
            rw [h2] at this
            exact this
          subst h3
          by_cases c1 : i < b.logIdx ∧ 0 < b.prevLogIdx ∧ b.prevLogIdx < s3.log.start
          · rw [if_pos c1] at h1 ⊢
            cases hl : s3.lastSnap with
            | none => rw [hl] at h1; cases h1; exact ⟨rfl, rfl⟩
            | some snp => rw [hl] at h1; cases h1
          rw [if_neg c1] at h1 ⊢
          by_cases c2 : i < b.logIdx ∧ b.prevLogIdx = 0
          · rw [if_pos c2] at h1 ⊢; cases h1; exact ⟨rfl, rfl⟩
          · rw [if_neg c2] at h1; cases h1
        rw [run_bind_ok h2.1]
        exact ⟨rfl, h2.2⟩
      · rw [run_bind_ok h1] at h
        exfalso
        unfold termAt at h
        rw [run_bind, bind_get] at h
        cases hg : s2.log.get? i with
        | none => rw [hg] at h; cases h
        | some e => rw [hg] at h; cases h
    rcases h1 : startSnapshot i { s with snpInProgress := true } with ⟨a, s1⟩
    rw [h1] at h
    split at h
    · cases h
    · cases h
      obtain ⟨k1, k2⟩ := key _ _ h1
      rw [k1]
      refine ⟨rfl, k2, fun k => ?_⟩
      unfold wantsSnapshot
      rw [k2]
      simp
  · rw [if_neg hw] at h; cases h

/-! ## A server that has agreed to leave -/

/-- Partial: a server that has agreed to leave, and ends because it hears nothing any more, sends nothing and its timer is off, also if
`system_exit` returns. Missing: it takes part again when it hears from another server. -/
theorem left_server_quiet_partial {s : Srv} (no : Refuses) (h : s.stepsToDown = 1) :
    ∃ s', Input.electionTimeout.runR no { s with trace := [] } = (.ok ⟨⟩, s') ∧ .exit (-1) ∈ s'.trace ∧ s'.armed = false ∧
      (∀ r, .send r ∉ s'.trace) ∧ s'.term = s.term ∧ s'.vote = s.vote ∧ s'.log = s.log := by
  show ∃ s', handleElectionTimeoutR _ = _ ∧ _
  unfold handleElectionTimeoutR
  rw [bind_modify, bind_get]
  dsimp only
  rw [if_pos (by omega), bind_modify, if_pos (by omega)]
  unfold leaveConfig
  rw [run_bind, bind_get]
  by_cases hc : s.config.has s.id = true
  · rw [if_pos (show _ = true from hc)]
    exact ⟨_, rfl, by simp, rfl, by simp, rfl, rfl, rfl⟩
  · rw [if_neg (show ¬ _ = true from hc)]
    exact ⟨_, rfl, by simp, rfl, by simp, rfl, rfl, rfl⟩

/-! ## Histories -/

/-- Inputs one after the other. -/
def Node.playR (no : Refuses) (n : Node) (fx : List Eff) : List Input → Option (Node × List Eff)
  | [] => some (n, fx)
  | x :: xs => match n.up with
    | none => none
    | some s => match (x.runR no { s with trace := [] }).1 with
      | .ok _ => Node.playR no ⟨n.disk.afterAll (x.runR no { s with trace := [] }).2.trace, some (x.runR no { s with trace := [] }).2⟩
          (fx ++ (x.runR no { s with trace := [] }).2.trace) xs
      | .error _ => none

theorem Node.playR_hist {no : Refuses} {c : Setup} {n0 : Node} : ∀ (xs : List Input) {n n' : Node} {ys : List Input} {fx fx' : List Eff},
    HistR no c n0 ys fx n → n.playR no fx xs = some (n', fx') → HistR no c n0 (ys ++ xs) fx' n'
  | [], n, n', ys, fx, fx', h, hp => by cases hp; rw [List.append_nil]; exact h
  | x :: xs, n, n', ys, fx, fx', h, hp => by
    obtain ⟨d, up⟩ := n
    cases up with
    | none => cases hp
    | some s =>
      unfold Node.playR at hp
      dsimp only at hp
      rcases hr : x.runR no { s with trace := [] } with ⟨a | a, s'⟩
      · rw [hr] at hp; cases hp
      · rw [hr] at hp
        have h2 := Node.playR_hist xs (h.step (.run hr)) hp
        rw [List.append_assoc] at h2
        exact h2

/-- The append request that brings server 3 the configuration without it. -/
def expelReq : Req :=
  { type := .appendReq, term := 1, src := 1, dst := 3, lastTerm := 0, lastIdx := 0, commitIdx := 2,
    entries := [⟨1, .conf ⟨1, 0, conf3.servers⟩⟩, ⟨1, .conf ⟨2, 1, [⟨1, 1⟩, ⟨2, 2⟩]⟩⟩] }
/-- The vote request of server 3. -/
def expelVote : Req := { type := .voteReq, term := 2, src := 3, dst := 1, lastTerm := 1, lastIdx := 2, commitIdx := 2 }

/-- C105 fails, from the start: server 3 applies the configuration it has been removed by and calls `system_exit`; when its timer expires it
asks for votes, and the leader of the cluster of two, which has applied the configuration too, gives up its office because of that. -/
theorem removed_server_disturbs :
    (∃ fx n, HistR (fun _ _ => false) { id := 3 } (Node.fresh conf3) [.req expelReq, .apply, .apply, .electionTimeout] fx n ∧
      fx.idxOf (.exit 0) < fx.idxOf (.send expelVote) ∧ .send expelVote ∈ fx) ∧
    ∃ fx n s, Hist node1 (Node.fresh conf3) (electScript.flatMap Move.input ++ [.req (rmReqOf 3), leftOf 3, appendRespOf 2 1 3, .apply]) fx n ∧
      n.up = some s ∧ s.role = .leader ∧ s.config.servers.map SrvCfg.id = [1, 2] ∧ s.peers.map Peer.id = [2] ∧
      ∃ s', (Input.req expelVote).run { s with trace := [] } = (.ok ⟨⟩, s') ∧ s'.role = .follower := by
  constructor
  · have h0 : HistR (fun _ _ => false) { id := 3 } (Node.fresh conf3) [] [] ⟨_, some (boot 3 {} Env.plain (Node.fresh conf3).disk)⟩ :=
      HistR.nil.step .boot
    have h1 : ((⟨(Node.fresh conf3).disk, some (boot 3 {} Env.plain (Node.fresh conf3).disk)⟩ : Node).playR (fun _ _ => false) []
        [.req expelReq, .apply, .apply, .electionTimeout]).any (fun q => decide (q.2.idxOf (.exit 0) < q.2.idxOf (.send expelVote)) &&
          q.2.any (fun e => decide (e = .send expelVote))) = true := by decide +kernel
    cases hq : ((⟨(Node.fresh conf3).disk, some (boot 3 {} Env.plain (Node.fresh conf3).disk)⟩ : Node).playR (fun _ _ => false) []
        [.req expelReq, .apply, .apply, .electionTimeout]) with
    | none => rw [hq] at h1; cases h1
    | some q =>
      rw [hq] at h1
      have h1 : (decide (q.2.idxOf (.exit 0) < q.2.idxOf (.send expelVote)) && q.2.any (fun e => decide (e = .send expelVote))) = true := h1
      rw [Bool.and_eq_true, List.any_eq_true] at h1
      obtain ⟨h2, e, h3, h4⟩ := h1
      exact ⟨_, _, Node.playR_hist _ h0 hq, of_decide_eq_true h2, by rw [← of_decide_eq_true h4]; exact h3⟩
  · obtain ⟨⟨d, up⟩, fx, h, hp⟩ := Node.witness (c := node1) (n := Node.fresh conf3)
      (electScript ++ [.go (.req (rmReqOf 3)), .go (leftOf 3), .go (appendRespOf 2 1 3), .go .apply])
      (fun n _ => match n.up with
        | some s => decide (s.role = .leader ∧ s.config.servers.map SrvCfg.id = [1, 2] ∧ s.peers.map Peer.id = [2]) &&
          (match (Input.req expelVote).run { s with trace := [] } with | (.ok _, s') => decide (s'.role = .follower) | _ => false)
        | none => false) (by decide +kernel)
    rcases up with _ | s
    · cases hp
    · rw [Bool.and_eq_true] at hp
      obtain ⟨h1, h2⟩ := hp
      obtain ⟨a1, a2, a3⟩ := of_decide_eq_true h1
      rcases hr : (Input.req expelVote).run { s with trace := [] } with ⟨x | x, s'⟩
      · rw [hr] at h2; cases h2
      · rw [hr] at h2
        exact ⟨fx, _, s, h, rfl, a1, a2, a3, s', hr, of_decide_eq_true h2⟩

/-! ## The hypotheses can be met -/

/-- Server 3 before it applies the configuration it has been removed by. -/
def expelled : Srv :=
  { id := 3, config := ⟨1, 0, conf3.servers⟩, term := 1, log := ⟨1, expelReq.entries⟩, quickCommit := 2, smCommit := 1,
    peers := [{ cfg := ⟨1, 1⟩, hbInterval := 75 }, { cfg := ⟨2, 2⟩, hbInterval := 75 }] }

example : Expelled expelled 1 ⟨2, 1, [⟨1, 1⟩, ⟨2, 2⟩]⟩ ∧ expelled.role ≠ .leader ∧ expelled.stepsToDown ≤ 0 ∧ expelled.peers ≠ [] ∧
    ∃ s1 s2, Input.apply.runR (fun _ _ => false) { expelled with trace := [] } = (.ok ⟨⟩, s1) ∧
      Input.electionTimeout.runR (fun _ _ => false) { s1 with trace := [] } = (.ok ⟨⟩, s2) := by
  refine ⟨⟨by decide, by decide, rfl, by decide, by decide, by decide, by decide, rfl, by decide +kernel⟩, by decide, by decide,
    by decide, _, _, rfl, rfl⟩

/-- A state machine that refuses command 7. -/
example : ∃ no : Refuses, ∃ s1 s2, Input.apply.runR no
      { quickCommit := 2, smCommit := 0, id := 1, config := conf3, log := ⟨1, [⟨1, .app 7⟩, ⟨1, .app 8⟩]⟩, trace := [] } = (.ok ⟨⟩, s1) ∧ s1.trace = [.exit (-1)] ∧
    Input.apply.runR no { s1 with trace := [] } = (.ok ⟨⟩, s2) ∧ s2.trace = [.commit 2 ⟨1, .app 8⟩] := by
  obtain ⟨s1, s2, h1, h2, -, h3, h4, -⟩ := refused_command_skipped
    (s := { quickCommit := 2, smCommit := 0, id := 1, config := conf3, log := ⟨1, [⟨1, .app 7⟩, ⟨1, .app 8⟩]⟩ })
    (e1 := ⟨1, .app 7⟩) (e2 := ⟨1, .app 8⟩) (d1 := 7) (d2 := 8) (fun i _ => i == 1) (by decide) (by decide) rfl rfl rfl rfl rfl rfl rfl
  exact ⟨_, s1, s2, h1, h2, h3, h4⟩

/-- A leader with a snapshot of its own, and a member that has nothing behind it; another index than that of the snapshot. -/
example : (∃ s p s', s.findPeer 2 = some p ∧ (if p.nextIdx = 0 then s.log.next else p.nextIdx) ≠ s.log.start ∧
      requestAppend (.member 2) s = (.error (.exit (-1)), s')) ∧
    (5 : Nat) ≠ 0 ∧ 5 < compacted.log.start ∧ compacted.smSnap = some ⟨10, 5, conf3, 3⟩ ∧ 5 ≠ 10 :=
  ⟨⟨{ compacted with lastSnap := some ⟨10, 5, conf3, 0⟩, peers := [{ cfg := ⟨2, 2⟩, nextIdx := 3, hbInterval := 75 }] }, _, _, rfl,
    by decide, rfl⟩, by decide, by decide, rfl, by decide⟩

/-- A configuration without predecessor behind the index of the snapshot. -/
example : ∃ s', snapshotAndCompact 2
      { id := 1, config := ⟨3, 0, conf3.servers⟩, params := { snpDistance := 1 },
        log := ⟨1, [⟨1, .app 7⟩, ⟨1, .app 8⟩, ⟨1, .conf ⟨3, 0, conf3.servers⟩⟩]⟩ } = (.error (.exit (-1)), s') := ⟨_, rfl⟩

/-- Server 3 has agreed to leave, and its timer has expired once. -/
example : { expelled with stepsToDown := 1 }.stepsToDown = 1 := rfl

end Cs.Raft
