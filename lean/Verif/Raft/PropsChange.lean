import Verif.Raft.Forward
import Verif.Raft.PropsForward
import Verif.Raft.PropsMember

/-!
# The results of `add_srv` and `remove_srv` (C78)
-/

namespace Cs.Raft
open Cs

/-- A server may be added: this server is leader, knows of no change under way, and the other one is not a member. -/
def MayAdd (s : Srv) (c : SrvCfg) : Prop :=
  s.role = .leader ∧ s.configChanging = false ∧ c.id ≠ s.id ∧ c.id ∉ s.peers.map Peer.id

/-- A server may be removed: this server is leader, knows of no change under way, and the other one is a member. -/
def MayRemove (s : Srv) (i : Int) : Prop :=
  s.role = .leader ∧ s.configChanging = false ∧ i ≠ s.id ∧ i ∈ s.peers.map Peer.id

/-- The server sends one message, an invitation to `c` with its configuration, at the address of `c`. -/
def Invites (s s' : Srv) (c : SrvCfg) : Prop :=
  s'.log = s.log ∧ (s'.srvToJoin.map Peer.cfg) = some c ∧ ∃ j, s'.trace = s.trace ++ [.send j] ∧ j.type = .joinReq ∧
    j.dst = c.id ∧ j.term = s.term ∧ j.entries = [⟨s.term, .conf s.config⟩]

/-- The server sends one message, which asks `i` to leave. -/
def AsksToLeave (s s' : Srv) (i : Int) : Prop :=
  s'.log = s.log ∧ ∃ j, s'.trace = s.trace ++ [.send j] ∧ j.type = .leaveReq ∧ j.dst = i ∧ j.term = s.term

theorem add_data (s : Srv) (c : SrvCfg) {q : Resp} {s' : Srv}
    (h : processReq (userReq .addReq [⟨0, .srv c⟩]) s = (.ok q, s')) :
    (q.accepted = true → MayAdd s c ∧ Invites s s' c) ∧ (q.accepted = false → ¬MayAdd s c ∧ s' = s) := by
  have hd : processReq (userReq .addReq [⟨0, .srv c⟩]) s = handleAddSrv (userReq .addReq [⟨0, .srv c⟩]) s := by
    rw [run_processReq, heard_other (by show ¬(MsgType.addReq = _ ∨ MsgType.addReq = _ ∨ MsgType.addReq = _); simp)]
    rfl
  rw [hd] at h
  unfold handleAddSrv at h
  rw [bind_get] at h
  change (if s.role ≠ .leader ∨ (s.findPeer c.id).isSome = true ∨ s.id = c.id ∨ s.configChanging = true then _ else _ : R Resp) s
    = _ at h
  by_cases hc : s.role ≠ .leader ∨ (s.findPeer c.id).isSome = true ∨ s.id = c.id ∨ s.configChanging = true
  · rw [if_pos hc] at h
    cases h
    refine ⟨nofun, fun _ => ⟨?_, rfl⟩⟩
    rintro ⟨h1, h2, h3, h4⟩
    rcases hc with h | h | h | h
    · exact h h1
    · exact h4 (isSome_find_iff.1 h)
    · exact h3 h.symm
    · rw [h2] at h; cases h
  · rw [if_neg hc] at h
    cases h
    refine ⟨fun _ => ⟨⟨?_, ?_, ?_, ?_⟩, rfl, rfl, _, rfl, rfl, rfl, rfl, rfl⟩, nofun⟩
    · exact Classical.byContradiction fun h => hc (.inl h)
    · cases he : s.configChanging
      · rfl
      · exact absurd (.inr (.inr (.inr he))) hc
    · exact fun h => hc (.inr (.inr (.inl h.symm)))
    · exact fun h => hc (.inr (.inl (isSome_find_iff.2 h)))

theorem remove_data (s : Srv) (i : Int) {q : Resp} {s' : Srv}
    (h : processReq (userReq .rmReq [⟨0, .rmId i⟩]) s = (.ok q, s')) :
    (q.accepted = true → MayRemove s i ∧ AsksToLeave s s' i) ∧ (q.accepted = false → ¬MayRemove s i ∧ s' = s) := by
  have hd : processReq (userReq .rmReq [⟨0, .rmId i⟩]) s = handleRmSrv (userReq .rmReq [⟨0, .rmId i⟩]) s := by
    rw [run_processReq, heard_other (by show ¬(MsgType.rmReq = _ ∨ MsgType.rmReq = _ ∨ MsgType.rmReq = _); simp)]
    rfl
  rw [hd] at h
  unfold handleRmSrv at h
  rw [bind_get] at h
  change (if s.role ≠ .leader ∨ s.configChanging = true ∨ i = s.id ∨ (s.findPeer i).isNone = true then _ else _ : R Resp) s
    = _ at h
  by_cases hc : s.role ≠ .leader ∨ s.configChanging = true ∨ i = s.id ∨ (s.findPeer i).isNone = true
  · rw [if_pos hc] at h
    cases h
    refine ⟨nofun, fun _ => ⟨?_, rfl⟩⟩
    rintro ⟨h1, h2, h3, h4⟩
    rcases hc with h | h | h | h
    · exact h h1
    · rw [h2] at h; cases h
    · exact h3 h
    · exact (isNone_find_iff.1 h) h4
  · rw [if_neg hc] at h
    cases h
    refine ⟨fun _ => ⟨⟨?_, ?_, ?_, ?_⟩, rfl, _, rfl, rfl, rfl, rfl⟩, nofun⟩
    · exact Classical.byContradiction fun h => hc (.inl h)
    · cases he : s.configChanging
      · rfl
      · exact absurd (.inr (.inl he)) hc
    · exact fun h => hc (.inr (.inr (.inl h)))
    · exact Classical.byContradiction fun h => hc (.inr (.inr (.inr (isNone_find_iff.2 h))))

/-- What a call gives, in terms of the server that handles the request: this one, or one that is asked. -/
theorem toLeader_cases (legal : Nat → Bool) (f : Front) (r : Req) {o : Outcome} {f' : Front} (h : f.toLeader legal r = (.ok o, f')) :
    (∃ q, f.srv.leader = f.srv.id ∧ processReq r { f.srv with trace := [] } = (.ok q, f'.srv) ∧ o = .now q.accepted) ∨
    (f.srv.leader ≠ f.srv.id ∧ f'.srv = f.srv ∧ (o = .now false ∨ ∃ a, o = .sent a r)) ∨
    (f.srv.leader = -1 ∧ f'.srv = f.srv ∧ o = .now false) := by
  unfold Front.toLeader at h
  split at h
  · rename_i hl
    cases h
    exact .inr (.inr ⟨hl, rfl, rfl⟩)
  split at h
  · rename_i hl
    obtain ⟨q, h1, h2⟩ := toSelf_out _ _ h
    exact .inl ⟨q, hl, h1, h2⟩
  · rename_i hl
    obtain ⟨o', cl, e1, e2⟩ := toOther_out legal f r
    rw [e1] at h
    cases h
    exact .inr (.inl ⟨hl, rfl, e2⟩)

/-- C78, `add_srv`, result at once: if the result is true this server is leader, the other server may be added, and it has been
invited at the address given; if the result is false and this server takes itself for the leader, the server may not be added;
and in any case nothing has been sent or changed. -/
theorem add_srv_now (legal : Nat → Bool) (f : Front) (c : SrvCfg) {b : Bool} {f' : Front}
    (h : f.addSrv legal c = (.ok (.now b), f')) :
    (b = true → MayAdd f.srv c ∧ Invites { f.srv with trace := [] } f'.srv c) ∧
    (b = false → (f.srv.leader = f.srv.id → f.srv.leader ≠ -1 → ¬MayAdd f.srv c) ∧
      (f'.srv = f.srv ∨ f'.srv = { f.srv with trace := [] })) := by
  rcases toLeader_cases legal f _ h with ⟨q, hl, hp, ho⟩ | ⟨hl, hs, ho⟩ | ⟨hl, hs, ho⟩
  · cases ho
    obtain ⟨h1, h2⟩ := add_data _ c hp
    exact ⟨h1, fun hb => ⟨fun _ _ => (h2 hb).1, .inr (h2 hb).2⟩⟩
  · rcases ho with ho | ⟨a, ho⟩
    · cases ho
      exact ⟨nofun, fun _ => ⟨fun h => absurd h hl, .inl hs⟩⟩
    · cases ho
  · cases ho
    exact ⟨nofun, fun _ => ⟨fun _ h => absurd hl h, .inl hs⟩⟩

/-- C78, `add_srv`, forwarded: nothing changes here, and whatever server answers, the result becomes true only if that server is
leader, may add the server and has invited it, and false only if it may not and nothing changed there. -/
theorem add_srv_forwarded (legal : Nat → Bool) (f : Front) (c : SrvCfg) {a : Nat} {r : Req} {f' : Front}
    (h : f.addSrv legal c = (.ok (.sent a r), f')) :
    f'.srv = f.srv ∧ ∀ (s : Srv) (q : Resp) (s' : Srv), processReq r s = (.ok q, s') →
      (callBack (some q) = some true → MayAdd s c ∧ Invites s s' c) ∧
      (callBack (some q) = some false → ¬MayAdd s c ∧ s' = s) := by
  rcases toLeader_cases legal f _ h with ⟨q, hl, hp, ho⟩ | ⟨hl, hs, ho⟩ | ⟨hl, hs, ho⟩
  · cases ho
  · rcases ho with ho | ⟨a, ho⟩
    · cases ho
    · cases ho
      refine ⟨hs, fun s q s' hp => ?_⟩
      obtain ⟨h1, h2⟩ := add_data s c hp
      exact ⟨fun h => h1 (Option.some.inj h), fun h => h2 (Option.some.inj h)⟩
  · cases ho

/-- C78, `remove_srv`, result at once. -/
theorem remove_srv_now (legal : Nat → Bool) (f : Front) (i : Int) {b : Bool} {f' : Front}
    (h : f.removeSrv legal i = (.ok (.now b), f')) :
    (b = true → MayRemove f.srv i ∧ AsksToLeave { f.srv with trace := [] } f'.srv i) ∧
    (b = false → (f.srv.leader = f.srv.id → f.srv.leader ≠ -1 → ¬MayRemove f.srv i) ∧
      (f'.srv = f.srv ∨ f'.srv = { f.srv with trace := [] })) := by
  rcases toLeader_cases legal f _ h with ⟨q, hl, hp, ho⟩ | ⟨hl, hs, ho⟩ | ⟨hl, hs, ho⟩
  · cases ho
    obtain ⟨h1, h2⟩ := remove_data _ i hp
    exact ⟨h1, fun hb => ⟨fun _ _ => (h2 hb).1, .inr (h2 hb).2⟩⟩
  · rcases ho with ho | ⟨a, ho⟩
    · cases ho
      exact ⟨nofun, fun _ => ⟨fun h => absurd h hl, .inl hs⟩⟩
    · cases ho
  · cases ho
    exact ⟨nofun, fun _ => ⟨fun _ h => absurd hl h, .inl hs⟩⟩

/-- C78, `remove_srv`, forwarded. -/
theorem remove_srv_forwarded (legal : Nat → Bool) (f : Front) (i : Int) {a : Nat} {r : Req} {f' : Front}
    (h : f.removeSrv legal i = (.ok (.sent a r), f')) :
    f'.srv = f.srv ∧ ∀ (s : Srv) (q : Resp) (s' : Srv), processReq r s = (.ok q, s') →
      (callBack (some q) = some true → MayRemove s i ∧ AsksToLeave s s' i) ∧
      (callBack (some q) = some false → ¬MayRemove s i ∧ s' = s) := by
  rcases toLeader_cases legal f _ h with ⟨q, hl, hp, ho⟩ | ⟨hl, hs, ho⟩ | ⟨hl, hs, ho⟩
  · cases ho
  · rcases ho with ho | ⟨a, ho⟩
    · cases ho
    · cases ho
      refine ⟨hs, fun s q s' hp => ?_⟩
      obtain ⟨h1, h2⟩ := remove_data s i hp
      exact ⟨fun h => h1 (Option.some.inj h), fun h => h2 (Option.some.inj h)⟩
  · cases ho

/-- Server 3 is leader of 1 and 3: it invites server 4 and asks server 1 to leave; both are forwarded by server 1; asking for
what is not possible gives false. -/
example :
    let f : Front := ⟨{ id := 1, leader := 3, config := ⟨0, 0, [⟨1, 11⟩, ⟨3, 13⟩]⟩, term := 5 }, []⟩
    let ps : List Peer := [{ cfg := ⟨1, 11⟩, hbInterval := 100 }]
    let g : Front := ⟨{ id := 3, leader := 3, config := ⟨0, 0, [⟨1, 11⟩, ⟨3, 13⟩]⟩, term := 5, role := .leader, peers := ps }, []⟩
    (f.addSrv (fun _ => true) ⟨4, 14⟩).1 = .ok (.sent 13 (userReq .addReq [⟨0, .srv ⟨4, 14⟩⟩])) ∧
    (f.removeSrv (fun _ => true) 1).1 = .ok (.sent 13 (userReq .rmReq [⟨0, .rmId 1⟩])) ∧
    (g.addSrv (fun _ => true) ⟨4, 14⟩).1 = .ok (.now true) ∧ (g.addSrv (fun _ => true) ⟨1, 14⟩).1 = .ok (.now false) ∧
    (g.removeSrv (fun _ => true) 1).1 = .ok (.now true) ∧ (g.removeSrv (fun _ => true) 4).1 = .ok (.now false) := by
  decide +kernel

end Cs.Raft
