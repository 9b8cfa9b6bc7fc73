import Verif.Raft.PropsMake

/-!
# When the state machine is asked for a snapshot
-/

namespace Cs.Raft
open Cs

/-- No snapshot is asked for, and the mark stays. -/
def Np (s s' : Srv) : Prop := ∃ fx, s'.trace = s.trace ++ fx ∧ created fx = [] ∧ s'.snpInProgress = s.snpInProgress

theorem npPo : PO Np where
  refl s := ⟨[], (List.append_nil _).symm, rfl, rfl⟩
  trans {a b c} h1 h2 := by
    obtain ⟨f1, e1, c1, p1⟩ := h1
    obtain ⟨f2, e2, c2, p2⟩ := h2
    exact ⟨f1 ++ f2, by rw [e2, e1, List.append_assoc], by rw [created_append, c1, c2]; rfl, p2.trans p1⟩

theorem Np.of {s s' : Srv} (h1 : s'.snpInProgress = s.snpInProgress) (fx : List Eff) (h2 : s'.trace = s.trace ++ fx)
    (h3 : created fx = []) : Np s s' := ⟨fx, h2, h3, h1⟩

theorem Frame.np {ty : MsgType → Prop} {s s' : Srv} (h : Frame ty s s') : Np s s' := by
  obtain ⟨ps, j, es, rfl, _, _, h⟩ := h
  refine .of rfl es rfl ?_
  unfold created
  rw [List.filterMap_eq_nil_iff]
  intro e he
  rcases h e he with rfl | ⟨r, rfl, _⟩ <;> rfl

instance npWalk0 : Walk0 Np where
  po := npPo
  calm h1 h2 _ _ := .of h2 [] (by rw [h1, List.append_nil]) rfl
  joinee _ := .of rfl [] (List.append_nil _).symm rfl
  peers _ := .of rfl [] (List.append_nil _).symm rfl
  say {s e} h := .of rfl [e] rfl (by cases e <;> first | rfl | cases h)
  ask i s := (requestAppend_frame (.member i) s).np

theorem np_addPeer (s : Srv) (p : Peer) : Np s { s with peers := s.peers ++ [p] } := .of rfl [] (List.append_nil _).symm rfl
theorem np_filter (s : Srv) (f : Peer → Bool) : Np s { s with peers := s.peers.filter f } :=
  .of rfl [] (List.append_nil _).symm rfl

theorem npWalk {x : Input} (hx : ∀ q ok, x ≠ .snapDone q ok) (hy : x ≠ .apply) : Walk Np x where
  sync i t c s := by
    have h := (createSync_frame isRepl .joining i t c s).1.np
    rw [run_bind]
    rcases hr : createSyncSnapshotReq .joining i t c s with ⟨e | q, s1⟩
    · rw [hr] at h; exact h
    · rw [hr] at h
      exact npPo.trans h (.of rfl [.send q] rfl rfl)
  snap i h := absurd h hy
  lead := wk_becomeLeader0 fun i s => (leaderPeer_frame i s).np
  done q ok h := absurd h (hx q ok)
  invite _ _ _ _ _ _ := .of rfl [] (List.append_nil _).symm rfl
  conf c := wk_commitConf0 (fun s p _ _ => np_addPeer s p) np_filter c
  inst q := wk_installSnapshot0 (fun s p _ _ => np_addPeer s p) np_filter q
  join r _ _ := wk_handleJoin0 (fun s p _ _ => np_addPeer s p) np_filter r
  force _ _ _ _ _ := np_filter _ _

theorem np_rpcResult (r : PeerRef) (ty : MsgType) (ok : Bool) : Pres Np (rpcResult r ty ok) := by
  intro s
  unfold rpcResult
  rw [bind_get, bind_modPeer]
  refine npPo.trans (Frame.setPeer isRepl s r _ ?_).np (Frame.setPeer isRepl _ r _ ?_).np
  · intro p; split <;> rfl
  · intro p; cases ok <;> rfl

/-- Only the commit thread asks for snapshots. -/
theorem np_run {x : Input} (hx : ∀ q ok, x ≠ .snapDone q ok) (hy : x ≠ .apply) : Pres Np x.run := by
  have hw := npWalk hx hy
  have h := wk_rest (x := x) (Q := Np)
  cases x with
  | peerResp ty r => exact pres_bind npPo (np_rpcResult _ _ _) fun _ => h
  | extResp p ty r => exact pres_bind npPo (np_rpcResult _ _ _) fun _ => h
  | peerErr r => exact np_rpcResult _ _ _
  | extErr p r => exact pres_bind npPo (np_rpcResult _ _ _) fun _ => h
  | _ => exact h

theorem np_applyEntry (k : Nat) (e : Entry) : Pres Np (applyEntry k e) :=
  have := npWalk (x := .tick 0) (fun _ _ h => (by cases h)) (fun h => (by cases h))
  wk_applyEntry k e

/-- The commit thread asks for a snapshot up to the entry it has just applied. -/
theorem apply_asks {s s' : Srv} {res : Except Fault Unit} (h : applyOne s = (res, s'))
    (hr : res = .ok ⟨⟩ ∨ res = .error .thrown) : ∃ fx, s'.trace = s.trace ++ fx ∧
    ((created fx = [] ∧ (s'.snpInProgress = true → s.snpInProgress = true)) ∨
      ∃ q, created fx = [q] ∧ s.log.start ≤ q.lastIdx ∧ q.lastIdx ≤ s.quickCommit) := by
  unfold applyOne at h
  rw [bind_get] at h
  by_cases hc : s.canApply = true
  · rw [if_pos hc, bind_modify] at h
    unfold Srv.canApply at hc
    rw [Bool.and_eq_true] at hc
    have hq := of_decide_eq_true hc.1
    unfold entryToApply at h
    rw [run_bind, bind_get] at h
    rcases he : s.log.get? (s.smCommit + 1) with _ | e
    · simp only [he] at h
      by_cases hlt : s.smCommit + 1 < s.log.start
      · rw [if_pos hlt] at h
        cases h
        rcases hr with hr | hr <;> cases hr
      · rw [if_neg hlt] at h
        cases h
        rcases hr with hr | hr <;> cases hr
    · have hst : s.log.start ≤ s.smCommit + 1 := by
        rcases Nat.lt_or_ge (s.smCommit + 1) s.log.start with hlt | hge
        · unfold Log.get? at he
          rw [if_pos hlt] at he
          cases he
        · exact hge
      simp only [he] at h
      rw [show ((pure e : R Entry) { s with smCommit := s.smCommit + 1 }) = (.ok e, { s with smCommit := s.smCommit + 1 }) from rfl] at h
      simp only [] at h
      rw [run_bind] at h
      have hn := np_applyEntry (s.smCommit + 1) e { s with smCommit := s.smCommit + 1 }
      rcases ha : applyEntry (s.smCommit + 1) e { s with smCommit := s.smCommit + 1 } with ⟨x | u, s1⟩
      · rw [ha] at h hn
        cases h
        obtain ⟨fx, e1, c1, p1⟩ := hn
        exact ⟨fx, e1, .inl ⟨c1, fun h => by rw [← h]; exact p1.symm⟩⟩
      · rw [ha] at h hn
        simp only [] at h hn
        obtain ⟨fx, e1, c1, p1⟩ := hn
        simp only [] at e1 p1
        unfold snapshotAndCompact at h
        rw [bind_get] at h
        by_cases hw : wantsSnapshot s1 (s.smCommit + 1) = true
        · rw [if_pos hw, bind_modify] at h
          unfold catchThrown at h
          rcases run_startSnapshot (s.smCommit + 1) { s1 with snpInProgress := true } with ⟨f2, h1, h2, h3⟩ | ⟨f2, q, h1, h2, h3, h4⟩
          · rcases hg : startSnapshot (s.smCommit + 1) { s1 with snpInProgress := true } with ⟨x | u, s2⟩
            · rw [hg] at h1 h
              simp only [] at h1
              subst h1
              cases x with
              | thrown =>
                cases h
                exact ⟨fx ++ f2, by rw [← List.append_assoc, ← e1], .inl ⟨by rw [created_append, c1, h2]; rfl, fun h => by cases h⟩⟩
              | exit c => cases h; rcases hr with hr | hr <;> cases hr
              | ub => cases h; rcases hr with hr | hr <;> cases hr
            · exact absurd (by rw [hg]) (h3 u)
          · rw [h1] at h
            cases h
            refine ⟨fx ++ f2, by rw [← List.append_assoc, ← e1], .inr ⟨q, by rw [created_append, c1, h2]; rfl, ?_, ?_⟩⟩
            · rw [h4]; exact hst
            · rw [h4]; omega
        · rw [if_neg hw] at h
          cases h
          exact ⟨fx, e1, .inl ⟨c1, fun h => by rw [← h]; exact p1.symm⟩⟩
  · rw [if_neg hc] at h
    cases h
    exact ⟨[], (List.append_nil _).symm, .inl ⟨rfl, fun h => h⟩⟩

end Cs.Raft
