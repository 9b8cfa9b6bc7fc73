import Verif.Cluster.Keep
import Verif.Raft.Reconf

/-!
# Handlers that run to their end

`Hale P m`: from every state with `P`, the code `m` runs to its end (no exit of the process, no exception, no undefined
behaviour) and `P` holds again.
-/

namespace Cs.Raft
open Cs

/-- `m` runs to its end and keeps `P`. -/
def Hale {α : Type} (P : Srv → Prop) (m : R α) : Prop := ∀ s, P s → ∃ a s', m s = (.ok a, s') ∧ P s'

variable {P : Srv → Prop} {α β : Type}

theorem hale_bind {m : R α} {k : α → R β} (h1 : Hale P m) (h2 : ∀ a, Hale P (k a)) : Hale P (m >>= k) := by
  intro s hs
  obtain ⟨a, s', e, hp⟩ := h1 s hs
  rw [run_bind_ok e]
  exact h2 a s' hp

theorem hale_pure (a : α) : Hale P (pure a : R α) := fun s h => ⟨a, s, rfl, h⟩
theorem hale_get : Hale P (get : R Srv) := fun s h => ⟨s, s, rfl, h⟩
theorem hale_modify {f : Srv → Srv} (h : ∀ s, P s → P (f s)) : Hale P (modify f : R PUnit) := fun s hs => ⟨⟨⟩, _, rfl, h s hs⟩
theorem hale_ite {c : Prop} [Decidable c] {a b : R α} (h1 : c → Hale P a) (h2 : ¬ c → Hale P b) :
    Hale P (if c then a else b) := by
  by_cases h : c
  · rw [if_pos h]; exact h1 h
  · rw [if_neg h]; exact h2 h
theorem hale_forEach {f : α → R Unit} : ∀ as, (∀ a ∈ as, Hale P (f a)) → Hale P (forEach f as)
  | [], _ => hale_pure ()
  | a :: as, h => hale_bind (h a List.mem_cons_self) fun _ => hale_forEach as fun b hb => h b (List.mem_cons_of_mem _ hb)
/-- The body may use the state that was read. -/
theorem hale_getBind {k : Srv → R β} (h : ∀ s, P s → ∃ a s', k s s = (.ok a, s') ∧ P s') : Hale P (get >>= k) := fun s hs => h s hs

/-- No peer is believed to have entries the log does not have. -/
def NextOk (s : Srv) : Prop := ∀ p ∈ s.peers, p.nextIdx ≤ s.log.next

/-- What the loops of a server without compaction rely on. -/
structure Fit (is : List Int) (s : Srv) : Prop where
  start : s.log.start = 1
  ids : s.peers.map Peer.id = is
  dist : s.params.snpDistance = 0
  steps : s.stepsToDown = 0
  next : s.role = .leader → NextOk s

/-- The same for a leader. -/
structure FitL (is : List Int) (s : Srv) : Prop extends Fit is s where
  lead : s.role = .leader

variable {is : List Int}

/-! ## Primitives -/

theorem Fit.emit {s : Srv} (h : Fit is s) (e : Eff) : Fit is { s with trace := s.trace ++ [e] } :=
  ⟨h.start, h.ids, h.dist, h.steps, h.next⟩

theorem hale_emit (hP : ∀ s e, P s → P { s with trace := s.trace ++ [e] }) (e : Eff) : Hale P (emit e) :=
  hale_modify fun s h => hP s e h

theorem FitL.emit {s : Srv} (h : FitL is s) (e : Eff) : FitL is { s with trace := s.trace ++ [e] } := ⟨h.toFit.emit e, h.lead⟩

theorem setPeer_ids (s : Srv) (r : PeerRef) (f : Peer → Peer) (hf : ∀ p, (f p).id = p.id) :
    (s.setPeer r f).peers.map Peer.id = s.peers.map Peer.id := by
  cases r with
  | joining => rfl
  | member k =>
    show (s.peers.map _).map _ = _
    rw [List.map_map]
    apply List.map_congr_left
    intro p _
    show Peer.id (if p.id == k then f p else p) = p.id
    split
    · exact hf p
    · rfl

/-- `setPeer` leaves the rest of the state alone. -/
theorem setPeer_rest (s : Srv) (r : PeerRef) (f : Peer → Peer) :
    (s.setPeer r f).log = s.log ∧ (s.setPeer r f).role = s.role ∧ (s.setPeer r f).params = s.params ∧
    (s.setPeer r f).stepsToDown = s.stepsToDown ∧ (s.setPeer r f).term = s.term := by
  cases r <;> exact ⟨rfl, rfl, rfl, rfl, rfl⟩

theorem setPeer_next {s : Srv} {r : PeerRef} {f : Peer → Peer} (h : NextOk s)
    (hf : ∀ p, p.nextIdx ≤ s.log.next → (f p).nextIdx ≤ s.log.next) : NextOk (s.setPeer r f) := by
  cases r with
  | joining => exact h
  | member k =>
    intro p hp
    obtain ⟨q, hq, rfl⟩ := List.mem_map.1 hp
    show (if q.id == k then f q else q).nextIdx ≤ s.log.next
    split
    · exact hf q (h q hq)
    · exact h q hq

theorem Fit.setPeer {s : Srv} (h : Fit is s) {r : PeerRef} {f : Peer → Peer} (h1 : ∀ p, (f p).id = p.id)
    (h2 : s.role = .leader → ∀ p, p.nextIdx ≤ s.log.next → (f p).nextIdx ≤ s.log.next) : Fit is (s.setPeer r f) := by
  obtain ⟨a, b, c, d, _⟩ := setPeer_rest s r f
  exact ⟨by rw [a]; exact h.start, (setPeer_ids s r f h1).trans h.ids, by rw [c]; exact h.dist, by rw [d]; exact h.steps,
    fun hl => setPeer_next (h.next (b ▸ hl)) (h2 (b ▸ hl))⟩

theorem FitL.setPeer {s : Srv} (h : FitL is s) {r : PeerRef} {f : Peer → Peer} (h1 : ∀ p, (f p).id = p.id)
    (h2 : ∀ p, p.nextIdx ≤ s.log.next → (f p).nextIdx ≤ s.log.next) : FitL is (s.setPeer r f) :=
  ⟨h.toFit.setPeer h1 fun _ => h2, (setPeer_rest s r f).2.1.trans h.lead⟩

theorem hale_modPeer {r : PeerRef} {f : Peer → Peer} (h1 : ∀ p, (f p).id = p.id)
    (h2 : ∀ p, (f p).nextIdx = p.nextIdx) : Hale (Fit is) (modPeer r f) :=
  hale_modify fun _ h => h.setPeer h1 fun _ p hp => by rw [h2]; exact hp

theorem halel_modPeer {r : PeerRef} {f : Peer → Peer} (h1 : ∀ p, (f p).id = p.id)
    (h2 : ∀ p, (f p).nextIdx ≤ p.nextIdx) : Hale (FitL is) (modPeer r f) :=
  hale_modify fun _ h => h.setPeer h1 fun p hp => Nat.le_trans (h2 p) hp

/-- A member is found. -/
theorem Fit.peer {s : Srv} (h : s.peers.map Peer.id = is) {k : Int} (hk : k ∈ is) :
    ∃ p ∈ s.peers, p.id = k ∧ s.peer (.member k) = some p := by
  rw [← h] at hk
  obtain ⟨p, hp, he⟩ := List.mem_map.1 hk
  have : (s.peers.find? fun q => q.id == k).isSome = true := by
    rw [List.find?_isSome]; exact ⟨p, hp, by simpa using he⟩
  obtain ⟨q, hq⟩ := Option.isSome_iff_exists.1 this
  exact ⟨q, List.mem_of_find?_eq_some hq, by simpa using List.find?_some hq, hq⟩

theorem hale_getPeer (hP : ∀ s, P s → s.peers.map Peer.id = is) {k : Int} (hk : k ∈ is) : Hale P (getPeer (.member k)) := by
  intro s hs
  obtain ⟨p, _, _, hp⟩ := Fit.peer (hP s hs) hk
  exact ⟨p, s, getPeer_some hp, hs⟩

theorem fit_termForLog {s : Srv} (h1 : s.log.start = 1) {n : Nat} (hn : n < s.log.next) :
    ∃ t, termForLog n s = (.ok t, s) := by
  by_cases h0 : n = 0
  · exact ⟨0, termForLog_some (by unfold termFor; rw [if_pos h0])⟩
  · obtain ⟨e, he⟩ := Log.get?_some (l := s.log) (i := n) (by omega) hn
    exact ⟨e.term, termForLog_some (by unfold termFor; rw [if_neg h0, if_pos (by omega), he]; rfl)⟩

/-! ## Sending -/

theorem hale_createAppendReq {k : Int} (hk : k ∈ is) : Hale (FitL is) (createAppendReq (.member k)) := by
  intro s hs
  unfold createAppendReq
  rw [bind_get, bind_modPeer]
  have h1 : FitL is (s.setPeer (.member k) fun p => if p.nextIdx = 0 then { p with nextIdx := s.log.next } else p) :=
    hs.setPeer (by intro p; split <;> rfl) (by
      intro p hp
      by_cases h : p.nextIdx = 0
      · rw [if_pos h]; exact Nat.le_refl _
      · rw [if_neg h]; exact hp)
  have hlog := (setPeer_rest s (.member k) fun p => if p.nextIdx = 0 then { p with nextIdx := s.log.next } else p).1
  generalize (s.setPeer (.member k) fun p => if p.nextIdx = 0 then { p with nextIdx := s.log.next } else p) = s1 at h1 hlog
  obtain ⟨p, hp, _, hpk⟩ := Fit.peer h1.ids hk
  have hb := h1.next h1.lead p hp
  have hpos : 0 < s1.log.next := by unfold Log.next; have := h1.start; omega
  rw [run_bind_ok (getPeer_some hpk), ← hlog, if_neg (by omega), if_neg (by have := h1.start; omega)]
  unfold appendReqFrom
  obtain ⟨t, ht⟩ := fit_termForLog h1.start (n := p.nextIdx - 1) (by omega)
  rw [run_bind_ok ht, run_bind_ok (entriesFrom_ok (.inr (by have := h1.start; omega))), bind_get,
    run_bind_ok (getPeer_some hpk)]
  exact ⟨_, _, rfl, h1⟩

theorem hale_requestAppend {k : Int} (hk : k ∈ is) : Hale (FitL is) (requestAppend (.member k)) := by
  unfold requestAppend
  refine hale_bind (hale_getPeer (fun s h => h.ids) hk) fun p => hale_ite (fun _ => hale_pure _) fun _ => ?_
  exact hale_bind (halel_modPeer (fun _ => rfl) fun _ => Nat.le_refl _) fun _ =>
    hale_bind (hale_createAppendReq hk) fun _ => hale_bind (hale_emit (fun s e h => h.emit e) _) fun _ => hale_pure _

theorem hale_requestAppendTo {k : Int} (hk : k ∈ is) : Hale (FitL is) (requestAppendTo k) :=
  hale_bind (hale_requestAppend hk) fun _ => hale_pure _

theorem hale_commitNotify {k : Int} (hk : k ∈ is) : Hale (FitL is) (commitNotify k) :=
  hale_bind (hale_requestAppend hk) fun _ => hale_ite (fun _ => hale_pure _) fun _ =>
    halel_modPeer (fun _ => rfl) fun _ => Nat.le_refl _

theorem halel_commit (n : Nat) : Hale (FitL is) (commit n) := by
  refine hale_getBind fun s hs => ?_
  by_cases h : s.quickCommit < n
  · rw [if_pos h, bind_modify, bind_emit]
    simp only [if_pos hs.lead]
    rw [bind_peerIds]
    refine hale_forEach _ (fun k hk => hale_commitNotify (is := is) ?_) _ ⟨⟨hs.start, hs.ids, hs.dist, hs.steps, hs.next⟩, hs.lead⟩
    rw [← hs.ids]; exact hk
  · rw [if_neg h]; exact ⟨_, _, rfl, hs⟩

theorem hale_commit (n : Nat) : Hale (Fit is) (commit n) := by
  intro s hs
  by_cases hl : s.role = .leader
  · obtain ⟨a, s', h1, h2⟩ := halel_commit n s ⟨hs, hl⟩
    exact ⟨a, s', h1, h2.toFit⟩
  · unfold commit
    rw [bind_get]
    by_cases h : s.quickCommit < n
    · rw [if_pos h, bind_modify, bind_emit]
      simp only [if_neg hl]
      exact ⟨_, _, rfl, ⟨hs.start, hs.ids, hs.dist, hs.steps, hs.next⟩⟩
    · rw [if_neg h]; exact ⟨_, _, rfl, hs⟩

theorem hale_requestAppendAll : Hale (FitL is) requestAppendAll := by
  refine hale_getBind fun s hs => ?_
  by_cases h : s.peers = []
  · rw [if_pos h]; exact halel_commit _ s hs
  · rw [if_neg h, bind_peerIds]
    refine hale_forEach _ (fun k hk => hale_requestAppendTo (is := is) ?_) _ hs
    rw [← hs.ids]; exact hk

theorem FitL.append {s : Srv} (h : FitL is s) (e : Entry) : FitL is { s with log := s.log.append e } :=
  ⟨⟨h.start, h.ids, h.dist, h.steps, fun _ p hp => by
    have := h.next h.lead p hp
    show p.nextIdx ≤ (s.log.append e).next
    rw [Log.next_append]; omega⟩, h.lead⟩

theorem hale_logAppend (e : Entry) : Hale (FitL is) (logAppend e) :=
  hale_bind (hale_modify fun _ h => h.append e) fun _ => hale_emit (fun _ e h => h.emit e) _

/-! ## Elections -/

theorem hale_initialConf : Hale (FitL is) initialConf :=
  hale_bind hale_get fun _ => hale_ite (fun _ => hale_bind (hale_modify fun _ h =>
      ⟨⟨h.start, h.ids, h.dist, h.steps, h.next⟩, h.lead⟩) fun _ => hale_bind hale_get fun _ =>
    hale_bind (hale_logAppend _) fun _ => hale_modify fun _ h => ⟨⟨h.start, h.ids, h.dist, h.steps, h.next⟩, h.lead⟩)
    fun _ => hale_pure _

/-- A new leader, before it has set the next index of the peers `todo`. -/
structure Starting (is todo : List Int) (s : Srv) : Prop where
  start : s.log.start = 1
  ids : s.peers.map Peer.id = is
  dist : s.params.snpDistance = 0
  steps : s.stepsToDown = 0
  lead : s.role = .leader
  next : ∀ p ∈ s.peers, p.id ∉ todo → p.nextIdx ≤ s.log.next

theorem starting_leaderPeer {todo : List Int} {k : Int} {s : Srv} (h : Starting is (k :: todo) s) :
    ∃ s', leaderPeer k s = (.ok ⟨⟩, s') ∧ Starting is todo s' := by
  unfold leaderPeer enableHb
  rw [bind_get, bind_modPeer, bind_get, run_modPeer]
  refine ⟨_, rfl, h.start, ?_, h.dist, h.steps, h.lead, ?_⟩
  · exact (setPeer_ids _ _ _ (by exact fun _ => rfl)).trans ((setPeer_ids _ _ _ (by exact fun _ => rfl)).trans h.ids)
  · intro p hp hn
    obtain ⟨q, hq, rfl⟩ := List.mem_map.1 hp
    obtain ⟨q', hq', rfl⟩ := List.mem_map.1 hq
    show _ ≤ s.log.next
    by_cases hk : q'.id = k
    · simp [hk]
      split <;> exact Nat.le_refl _
    · have h1 : (q'.id == k) = false := by simpa using hk
      simp only [h1, Bool.false_eq_true, if_false] at hn ⊢
      exact h.next q' hq' (fun hm => by rcases List.mem_cons.1 hm with h | h <;> contradiction)

theorem starting_all : ∀ (todo : List Int) (s : Srv), Starting is todo s →
    ∃ s', forEach leaderPeer todo s = (.ok ⟨⟩, s') ∧ Starting is [] s'
  | [], s, h => ⟨s, rfl, h⟩
  | k :: todo, s, h => by
    obtain ⟨s1, h1, h2⟩ := starting_leaderPeer h
    obtain ⟨s2, h3, h4⟩ := starting_all todo s1 h2
    refine ⟨s2, ?_, h4⟩
    show (leaderPeer k >>= fun _ => forEach leaderPeer todo) s = _
    rw [run_bind_ok h1, h3]

theorem hale_becomeLeader : Hale (Fit is) becomeLeader := by
  intro s hs
  unfold becomeLeader stopElectionTimer
  rw [bind_modify, bind_get, bind_modify, bind_emit, bind_modify, bind_modify, bind_peerIds]
  have h0 : Starting is is
      { s with armed := false, role := .leader, trace := s.trace ++ [.lead s.term], leader := s.id, srvToJoin := none } :=
    ⟨hs.start, hs.ids, hs.dist, hs.steps, rfl, fun p hp hn => absurd (hs.ids ▸ List.mem_map.2 ⟨p, hp, rfl⟩) hn⟩
  generalize ({ s with
    armed := false, role := .leader, trace := s.trace ++ [.lead s.term], leader := s.id, srvToJoin := none } : Srv) = s0 at h0
  obtain ⟨s1, h1, h2⟩ := starting_all is s0 h0
  rw [h0.ids, run_bind_ok h1]
  have h3 : FitL is s1 := ⟨⟨h2.start, h2.ids, h2.dist, h2.steps, fun _ p hp => h2.next p hp (by simp)⟩, h2.lead⟩
  obtain ⟨a, s2, h4, h5⟩ := hale_bind hale_initialConf (fun _ => hale_bind (hale_emit (P := FitL is) (fun _ e h => h.emit e) _)
    fun _ => hale_requestAppendAll) s1 h3
  exact ⟨a, s2, h4, h5.toFit⟩

theorem hale_askVote (ty : MsgType) (k : Int) : Hale (Fit is) (askVote ty k) := by
  refine hale_getBind fun s hs => ?_
  obtain ⟨t, ht⟩ := fit_termForLog hs.start (n := s.log.next - 1) (by unfold Log.next; have := hs.start; omega)
  rw [run_bind_ok ht]
  exact ⟨_, _, rfl, hs.emit _⟩

theorem hale_askForVotes : Hale (Fit is) askForVotes :=
  hale_bind hale_get fun _ => hale_ite
    (fun _ => hale_bind (hale_modify fun _ h => ⟨h.start, h.ids, h.dist, h.steps, h.next⟩) fun _ => hale_becomeLeader)
    fun _ => hale_bind (fun s h => ⟨_, s, rfl, h⟩) fun _ => hale_forEach _ fun _ _ => hale_askVote _ _

theorem hale_saveState : Hale (Fit is) saveState := hale_bind hale_get fun _ => hale_emit (fun _ e h => h.emit e) _

theorem hale_requestVote : Hale (Fit is) requestVote := by
  refine hale_bind ?_ fun _ => hale_askForVotes
  exact hale_bind (hale_modify fun _ h => ⟨h.start, h.ids, h.dist, h.steps, h.next⟩) fun _ => hale_bind hale_saveState fun _ =>
    hale_bind (hale_modify fun _ h => ⟨h.start, h.ids, h.dist, h.steps, h.next⟩) fun _ =>
    hale_modify fun _ h => ⟨h.start, h.ids, h.dist, h.steps, h.next⟩

theorem hale_restart : Hale (Fit is) restartElectionTimer :=
  hale_bind hale_get fun _ => hale_ite (fun _ => hale_pure _) fun _ =>
    hale_modify fun _ h => ⟨h.start, h.ids, h.dist, h.steps, h.next⟩

theorem hale_becomeCandidate : Hale (Fit is) becomeCandidate := by
  refine hale_bind ?_ fun _ => hale_bind hale_requestVote fun _ => ?_
  · exact hale_bind (hale_modify fun _ h => ⟨h.start, h.ids, h.dist, h.steps, h.next⟩) fun _ =>
      hale_bind (hale_modify fun _ h => ⟨h.start, h.ids, h.dist, h.steps, h.next⟩) fun _ =>
      hale_bind (hale_modify fun _ h => ⟨h.start, h.ids, h.dist, h.steps, nofun⟩) fun _ =>
      hale_bind (hale_modify fun _ h => ⟨h.start, h.ids, h.dist, h.steps, h.next⟩) fun _ => hale_saveState
  · exact hale_bind hale_get fun _ => hale_ite (fun _ => hale_restart) fun _ => hale_pure _

theorem hale_requestPrevote : Hale (Fit is) requestPrevote :=
  hale_bind hale_get fun _ => hale_ite (fun _ => hale_becomeCandidate) fun _ =>
    hale_bind (hale_modify fun _ h => ⟨h.start, h.ids, h.dist, h.steps, h.next⟩) fun _ =>
    hale_bind (fun s h => ⟨_, s, rfl, h⟩) fun _ => hale_forEach _ fun _ _ => hale_askVote _ _

theorem fit_electionTimeout {s : Srv} (hs : Fit is s) (hl : s.role ≠ .leader) :
    ∃ a s', handleElectionTimeout s = (.ok a, s') ∧ Fit is s' := by
  unfold handleElectionTimeout
  rw [bind_modify, bind_get]
  have h1 : Fit is { s with armed := false } := ⟨hs.start, hs.ids, hs.dist, hs.steps, hs.next⟩
  have hl1 : ({ s with armed := false } : Srv).role ≠ .leader := hl
  generalize ({ s with armed := false } : Srv) = s1 at h1 hl1
  rw [if_neg (by have := h1.steps; omega)]
  by_cases h2 : s1.catchingUp = true
  · rw [if_pos h2]; exact hale_restart s1 h1
  rw [if_neg h2, if_neg hl1]
  exact hale_ite (fun _ => hale_ite (fun _ => hale_pure _) fun _ => hale_requestPrevote) (fun _ => hale_becomeCandidate) s1 h1

theorem fit_hbTimeout {k : Int} {s : Srv} (hs : Fit is s) (hk : k ∈ is) :
    ∃ a s', handleHbTimeout (.member k) s = (.ok a, s') ∧ Fit is s' := by
  unfold handleHbTimeout
  rw [bind_modPeer, bind_get]
  have h1 : Fit is (s.setPeer (.member k) fun p => { p with hbArmed := false }) := hs.setPeer (fun _ => rfl) fun _ _ h => h
  generalize (s.setPeer (.member k) fun p => { p with hbArmed := false }) = s1 at h1
  by_cases hl : s1.role = .leader
  · rw [if_pos hl]
    obtain ⟨a, s2, h2, h3⟩ := hale_bind (hale_requestAppend hk) (fun _ => halel_modPeer (r := .member k)
      (f := fun p => if p.hbEnabled then { p with hbArmed := true } else p)
      (fun p => by split <;> rfl) fun p => by split <;> exact Nat.le_refl _) s1 ⟨h1, hl⟩
    exact ⟨a, s2, h2, h3.toFit⟩
  · rw [if_neg hl]; exact ⟨_, _, rfl, h1⟩

/-! ## Requests -/

theorem Fit.stepDown {s : Srv} (h : Fit is s) : Fit is s.stepDown := by
  refine ⟨h.start, ?_, h.dist, h.steps, nofun⟩
  show (s.peers.map disableHb).map Peer.id = is
  rw [List.map_map, ← h.ids]; rfl

theorem Fit.newTerm {s : Srv} (h : Fit is s) (t : Nat) : Fit is (s.newTerm t) :=
  Fit.stepDown ⟨h.start, h.ids, h.dist, h.steps, h.next⟩

theorem Fit.heard {s : Srv} (h : Fit is s) (m : Req) : Fit is (s.heard m) := by
  have hst : (if 0 < s.stepsToDown then 2 else s.stepsToDown) = s.stepsToDown := if_neg (by rw [h.steps]; decide)
  unfold Srv.heard
  rw [hst]
  by_cases h1 : m.type = .appendReq ∨ m.type = .voteReq ∨ m.type = .snpReq
  · rw [if_pos h1]
    by_cases h2 : s.term < m.term
    · rw [if_pos h2]
      have h3 := h.newTerm m.term
      exact ⟨h3.start, h3.ids, h3.dist, h.steps, h3.next⟩
    · rw [if_neg h2]; exact h
  · rw [if_neg h1]; exact h

theorem heard_role_term (s : Srv) (m : Req) : (s.heard m).role = .leader → s.role = .leader ∧ (s.heard m).term = s.term := by
  unfold Srv.heard
  split
  · split
    · intro h; cases h
    · intro h; exact ⟨h, rfl⟩
  · intro h; exact ⟨h, rfl⟩

theorem fit_hearLeader {s : Srv} (hs : Fit is s) {m : Req} (hm : s.role = .leader → m.term ≠ s.term) :
    ∃ s', hearLeader m s = (.ok ⟨⟩, s') ∧ Fit is s' ∧ s'.term = s.term ∧ (s'.role = .leader → m.term ≠ s'.term) := by
  unfold hearLeader
  rw [bind_get]
  by_cases h : m.term = s.term
  · rw [if_pos h]
    rcases hr : s.role with _ | _ | _
    · simp only []
      rw [run_restart]
      exact ⟨_, rfl, ⟨hs.start, hs.ids, hs.dist, hs.steps, hs.next⟩, rfl, fun hl => by
        have hl : s.role = .leader := hl
        rw [hr] at hl; cases hl⟩
    · simp only []
      rw [run_becomeFollower]
      exact ⟨_, rfl, hs.stepDown, rfl, nofun⟩
    · exact absurd h (hm hr)
  · rw [if_neg h]; exact ⟨s, rfl, hs, rfl, fun _ => h⟩

theorem fit_logOkay {s : Srv} (hs : Fit is s) (m : Req) :
    ∃ b, logOkay m s = (.ok b, s) ∧ (b = true → m.lastIdx < s.log.next) := by
  have hpos : 0 < s.log.next := by unfold Log.next; have := hs.start; omega
  unfold logOkay
  rw [bind_get]
  by_cases h0 : m.lastIdx = 0
  · rw [if_pos h0]; exact ⟨true, rfl, fun _ => by omega⟩
  rw [if_neg h0]
  by_cases h1 : m.lastIdx < s.log.next
  · rw [if_pos h1]
    obtain ⟨t, ht⟩ := fit_termForLog hs.start h1
    rw [run_bind_ok ht]
    exact ⟨_, rfl, fun _ => h1⟩
  · rw [if_neg h1]; exact ⟨false, rfl, nofun⟩

theorem Log.store_start (l : Log) (i : Nat) (es : List Entry) : (l.store i es).start = l.start := by
  unfold Log.store; split <;> rfl

theorem hearLeader_role (m : Req) (s : Srv) : (hearLeader m s).2.role = .leader → s.role = .leader := by
  unfold hearLeader
  rw [bind_get]
  by_cases h : m.term = s.term
  · rw [if_pos h]
    rcases hr : s.role with _ | _ | _
    · simp only []; rw [run_restart]; intro hl; rw [← hr]; exact hl
    · simp only []; rw [run_becomeFollower]; nofun
    · intro _; rfl
  · rw [if_neg h]; exact fun hl => hl

theorem fit_handleAppendEntries {s : Srv} (hs : Fit is s) {m : Req} (hm : s.role = .leader → m.term < s.term) :
    ∃ a s', handleAppendEntries m s = (.ok a, s') ∧ Fit is s' := by
  unfold handleAppendEntries
  obtain ⟨s1, h1, f1, t1, r1⟩ := fit_hearLeader hs (m := m) (fun h => by have := hm h; omega)
  rw [run_bind_ok h1, bind_get]
  obtain ⟨b, h2, h3⟩ := fit_logOkay f1 m
  rw [run_bind_ok h2]
  by_cases hb : m.term < s1.term ∨ b = false
  · rw [if_pos hb]; exact ⟨_, _, rfl, f1⟩
  rw [if_neg hb]
  have hb2 : b = true := by cases b; exact absurd (.inr rfl) hb; rfl
  obtain ⟨cc, h4⟩ := run_storeEntries m s1 (by have := f1.start; omega) (h3 hb2)
  rw [run_bind_ok h4, bind_modify]
  have hl : s1.role ≠ .leader := by
    intro hl
    have e1 := r1 hl
    have hge : s1.term ≤ m.term := by omega
    have : s.role = .leader := by
      by_cases hx : s.role = .leader
      · exact hx
      · exfalso
        -- `hearLeader` never makes a leader
        have hq := hearLeader_role m s
        rw [h1] at hq
        exact hx (hq hl)
    have := hm this
    omega
  refine hale_bind (hale_commit (is := is) m.commitIdx) (fun _ => hale_pure _) _
    ⟨?_, f1.ids, f1.dist, f1.steps, fun h => absurd h hl⟩
  show (s1.log.store _ _).start = 1
  rw [Log.store_start]; exact f1.start

theorem halel_isLeader : Hale (FitL is) isLeader := by
  refine hale_bind hale_get fun _ => hale_ite (fun _ => ?_) fun _ => hale_pure _
  exact hale_bind (hale_modify fun _ h => ⟨⟨h.start, h.ids, h.dist, h.steps, h.next⟩, h.lead⟩) fun _ =>
    hale_bind hale_get fun _ => hale_ite (fun _ => hale_pure _) fun _ => hale_pure _

theorem run_isLeader_not {s : Srv} (h : s.role ≠ .leader) : isLeader s = (.ok false, s) := by
  unfold isLeader
  rw [bind_get, if_neg (fun hh => h hh.1)]
  show (Except.ok (decide (s.role = .leader)), s) = _
  rw [decide_eq_false h]

theorem hale_appendClient : ∀ es, Hale (FitL is) (appendClient es)
  | [] => hale_pure _
  | _ :: es => hale_bind hale_get fun _ => hale_bind (hale_logAppend _) fun _ =>
    hale_bind (hale_emit (fun _ e h => h.emit e) _) fun _ => hale_appendClient es

theorem fit_handleCliReq (m : Req) : Hale (Fit is) (handleCliReq m) := by
  intro s hs
  by_cases hl : s.role = .leader
  · have h : Hale (FitL is) (handleCliReq m) :=
      hale_bind halel_isLeader fun _ => hale_bind hale_get fun _ => hale_ite (fun _ => hale_pure _) fun _ =>
        hale_ite (fun _ => hale_pure _) fun _ => hale_bind (hale_appendClient _) fun _ =>
        hale_bind hale_requestAppendAll fun _ => hale_bind hale_get fun _ => hale_pure _
    obtain ⟨a, s', h1, h2⟩ := h s ⟨hs, hl⟩
    exact ⟨a, s', h1, h2.toFit⟩
  · unfold handleCliReq
    rw [run_bind_ok (run_isLeader_not hl), bind_get, if_neg (fun hh => hl hh.1), if_pos rfl]
    exact ⟨_, _, rfl, hs⟩

theorem hale_replicateLog (d : Nat) : Hale (Fit is) (replicateLog d) := by
  intro s hs
  by_cases hl : s.role = .leader
  · have h : Hale (FitL is) (replicateLog d) :=
      hale_bind halel_isLeader fun _ => hale_ite (fun _ => hale_bind hale_get fun _ => hale_bind (hale_logAppend _) fun _ =>
        hale_bind hale_requestAppendAll fun _ => hale_pure _) fun _ => hale_pure _
    obtain ⟨a, s', h1, h2⟩ := h s ⟨hs, hl⟩
    exact ⟨a, s', h1, h2.toFit⟩
  · unfold replicateLog
    rw [run_bind_ok (run_isLeader_not hl)]
    exact ⟨_, _, rfl, hs⟩

theorem hale_handleVoteReq (m : Req) : Hale (Fit is) (handleVoteReq m) :=
  hale_bind hale_get fun _ => hale_ite (fun _ => hale_bind (hale_modify fun _ h =>
    ⟨h.start, h.ids, h.dist, h.steps, h.next⟩) fun _ => hale_bind hale_saveState fun _ => hale_pure _) fun _ => hale_pure _

theorem hale_handlePrevoteReq (m : Req) : Hale (Fit is) (handlePrevoteReq m) :=
  hale_bind hale_get fun _ => hale_ite (fun _ => hale_pure _) fun _ => hale_pure _

/-- A request does not end the process, unless a leader gets an append request of its own term. -/
theorem fit_req {s : Srv} (hs : Fit is s) {m : Req}
    (ht : m.type = .appendReq ∨ m.type = .voteReq ∨ m.type = .clientReq ∨ m.type = .prevoteReq)
    (hm : m.type = .appendReq → s.role = .leader → m.term ≠ s.term) :
    ∃ s', (Input.req m).run s = (.ok ⟨⟩, s') ∧ Fit is s' := by
  have key : ∃ a s', dispatch m (s.heard m) = (.ok a, s') ∧ Fit is s' := by
    unfold dispatch
    rcases ht with h | h | h | h
    · rw [h]
      refine fit_handleAppendEntries (hs.heard m) fun hl => ?_
      obtain ⟨h1, h2⟩ := heard_role_term s m hl
      have h3 := heard_term (s := s) (r := m) (.inl h)
      have h4 := hm h h1
      omega
    · rw [h]; exact hale_handleVoteReq m _ (hs.heard m)
    · rw [h]; exact fit_handleCliReq m _ (hs.heard m)
    · rw [h]
      show ∃ a s', handleExtended m _ = _ ∧ _
      unfold handleExtended
      rw [h]
      exact hale_handlePrevoteReq m _ (hs.heard m)
  obtain ⟨a, s1, h1, h2⟩ := key
  refine ⟨{ s1 with trace := s1.trace ++ [.reply a] }, ?_, h2.emit _⟩
  show (processReq m >>= fun resp => emit (.reply resp)) s = _
  rw [run_bind_ok ((run_processReq s m).trans h1)]
  rfl

/-! ## Answers -/

theorem hale_rpcResult (r : PeerRef) (ty : MsgType) (ok : Bool) : Hale (Fit is) (rpcResult r ty ok) := by
  refine hale_bind hale_get fun s => hale_bind (hale_modPeer (fun p => ?_) fun p => ?_) fun _ => hale_modPeer (fun p => ?_) fun p => ?_
  · split <;> rfl
  · split <;> rfl
  · split <;> rfl
  · split <;> rfl

theorem rpcResult_rest (r : PeerRef) (ty : MsgType) (ok : Bool) (s : Srv) :
    (rpcResult r ty ok s).2.log = s.log ∧ (rpcResult r ty ok s).2.role = s.role := by
  unfold rpcResult
  rw [bind_get, bind_modPeer, run_modPeer]
  cases r <;> exact ⟨rfl, rfl⟩

theorem fit_handleVotingResp (r : Resp) : Hale (Fit is) (handleVotingResp r) := by
  intro s hs
  by_cases h : r.term ≠ s.term ∨ s.electionCompleted = true ∨ r.src ∈ s.voted
  · have : handleVotingResp r s = (.ok ⟨⟩, s) := by unfold handleVotingResp; rw [bind_get, if_pos h]; rfl
    exact ⟨_, _, this, hs⟩
  · rw [run_handleVotingResp h]
    by_cases hv : (s.peers.length + 1) / 2 < (s.counted r).votesGranted
    · rw [if_pos hv]
      exact hale_becomeLeader _ ⟨hs.start, hs.ids, hs.dist, hs.steps, hs.next⟩
    · rw [if_neg hv]
      exact ⟨_, _, rfl, ⟨hs.start, hs.ids, hs.dist, hs.steps, hs.next⟩⟩

/-- An accepted answer is in order for `s` if it does not say more than the log of a leader has. -/
def Sober (s : Srv) (r : Resp) : Prop := r.type = .appendResp → r.accepted = true → s.role = .leader → r.nextIdx ≤ s.log.next

theorem fit_acceptedResp {s : Srv} (hs : Fit is s) {r : Resp} (hk : r.src ∈ is)
    (hr : s.role = .leader → r.nextIdx ≤ s.log.next) : ∃ a s', acceptedResp r s = (.ok a, s') ∧ Fit is s' := by
  unfold acceptedResp
  rw [bind_modPeer, bind_get]
  have h2 : Fit is (s.setPeer (.member r.src) fun p => { p with nextIdx := r.nextIdx, matched := subU64 r.nextIdx 1 }) := by
    refine hs.setPeer (fun _ => rfl) fun hl p _ => ?_
    show r.nextIdx ≤ _
    exact hr hl
  generalize (s.setPeer (.member r.src) fun p => { p with nextIdx := r.nextIdx, matched := subU64 r.nextIdx 1 }) = s1 at h2
  have h3 : ∀ n, Hale (Fit is) (do
      commit n
      let p ← getPeer (.member r.src)
      modPeer (.member r.src) fun p => { p with pending := false }
      let s ← get
      pure (p.pending || decide (r.nextIdx < s.log.next)) : R Bool) := fun n =>
    hale_bind (hale_commit _) (fun _ => hale_bind (hale_getPeer (fun _ h => h.ids) hk) fun _ =>
      hale_bind (hale_modPeer (fun _ => rfl) fun _ => rfl) fun _ => hale_bind hale_get fun _ => hale_pure _)
  exact h3 _ s1 h2

theorem fit_refusedResp (r : Resp) : Hale (Fit is) (refusedResp r) := by
  unfold refusedResp
  refine hale_bind (hale_modify fun s h => ?_) fun _ => hale_pure _
  refine h.setPeer (fun p => ?_) fun _ p hp => ?_
  · split
    · rfl
    · split <;> rfl
  · split
    · rename_i h1
      exact Nat.le_trans (Nat.le_of_lt h1.2) hp
    · split
      · exact Nat.le_trans (Nat.sub_le _ _) hp
      · exact hp

theorem fit_handleAppendResp {s : Srv} (hs : Fit is s) {r : Resp} (ht : r.type = .appendResp) (hr : Sober s r) :
    ∃ a s', handleAppendResp r s = (.ok a, s') ∧ Fit is s' := by
  unfold handleAppendResp
  rw [bind_get]
  by_cases hn : (s.findPeer r.src).isNone = true
  · rw [if_pos hn]; exact ⟨_, _, rfl, hs⟩
  rw [if_neg hn]
  have hk : r.src ∈ is := by
    rcases hf : s.findPeer r.src with _ | p
    · rw [hf] at hn; exact absurd rfl hn
    · rw [← hs.ids]
      exact List.mem_map.2 ⟨p, List.mem_of_find?_eq_some hf, by simpa using List.find?_some hf⟩
  have hrest : ∀ more : Bool, Hale (Fit is) (do
      let s ← get
      if s.role = .leader ∧ more = true then requestAppendTo r.src else pure () : R Unit) := by
    intro more
    refine hale_getBind fun s1 h1 => ?_
    by_cases hl : s1.role = .leader ∧ more = true
    · rw [if_pos hl]
      obtain ⟨a, s2, h2, h3⟩ := hale_requestAppendTo hk s1 ⟨h1, hl.1⟩
      exact ⟨a, s2, h2, h3.toFit⟩
    · rw [if_neg hl]; exact ⟨_, _, rfl, h1⟩
  by_cases ha : r.accepted = true
  · simp only [if_pos ha]
    obtain ⟨b, s1, h2, h3⟩ := fit_acceptedResp hs hk (hr ht ha)
    rw [run_bind_ok h2]
    exact hrest b s1 h3
  · simp only [if_neg ha]
    obtain ⟨b, s1, h2, h3⟩ := fit_refusedResp r s hs
    rw [run_bind_ok h2]
    exact hrest b s1 h3

theorem fit_handlePeerResp {s : Srv} (hs : Fit is s) {r : Resp} (ht : r.type = .voteResp ∨ r.type = .appendResp)
    (hr : Sober s r) : ∃ a s', handlePeerResp r s = (.ok a, s') ∧ Fit is s' := by
  unfold handlePeerResp
  rw [bind_get]
  by_cases hn : (s.findPeer r.src).isNone = true
  · rw [if_pos hn]; exact ⟨_, _, rfl, hs⟩
  rw [if_neg hn, bind_modPeer]
  have h1 : Fit is (s.setPeer (.member r.src) fun p => { p with lastResp := s.now }) := hs.setPeer (fun _ => rfl) fun _ _ h => h
  have h2 : Sober (s.setPeer (.member r.src) fun p => { p with lastResp := s.now }) r := hr
  generalize (s.setPeer (.member r.src) fun p => { p with lastResp := s.now }) = s1 at h1 h2
  by_cases h3 : s1.term < r.term
  · rw [run_bind_ok (run_updateTerm_gt h3)]
    exact ⟨_, _, rfl, h1.newTerm _⟩
  · rw [run_bind_ok (run_updateTerm_le (by omega))]
    simp only [Bool.false_eq_true, if_false]
    unfold dispatchResp
    rcases ht with h | h
    · rw [h]; exact fit_handleVotingResp r s1 h1
    · rw [h]; exact fit_handleAppendResp h1 h h2

theorem hale_handlePrevoteResp (r : Resp) : Hale (Fit is) (handlePrevoteResp r) := by
  intro s hs
  unfold handlePrevoteResp
  rw [bind_get]
  rcases s.prevote with _ | ⟨v, n⟩
  · exact ⟨_, _, rfl, hs⟩
  · simp only []
    refine hale_ite (fun _ => hale_pure _) (fun _ => ?_) s hs
    refine hale_bind (hale_modify fun _ h => ⟨h.start, h.ids, h.dist, h.steps, h.next⟩) fun _ => ?_
    refine hale_ite (fun _ => hale_becomeCandidate) fun _ => hale_ite (fun _ => ?_) fun _ => hale_pure _
    exact hale_bind (hale_modify fun _ h => ⟨h.start, h.ids, h.dist, h.steps, h.next⟩) fun _ => hale_restart

/-! ## The commit thread -/

section
variable {cs : List SrvCfg} {H : History} {i : Int} [hm : Member cs i]
include hm

theorem fit_commitConf {s : Srv} {c : Config} (g : Good cs H i s) (hs : Fit is s) (hc : c.servers = cs) :
    ∃ a s', commitConf c s = (.ok a, s') ∧ Fit is s' := by
  unfold commitConf
  rw [bind_emit, bind_modify, bind_get]
  have g1 : Good cs H i { s with trace := s.trace ++ [.saveConfig c], configChanging := false } :=
    ⟨g.id, g.start, g.ids, g.servers, g.catching, g.steps, g.join, g.dist, g.conf, g.votes, g.matched⟩
  have h1 : Fit is { s with trace := s.trace ++ [.saveConfig c], configChanging := false } :=
    ⟨hs.start, hs.ids, hs.dist, hs.steps, hs.next⟩
  generalize ({ s with trace := s.trace ++ [.saveConfig c], configChanging := false } : Srv) = s1 at g1 h1
  by_cases h : s1.config.logIdx < c.logIdx
  · simp only [if_pos h]
    rw [run_bind_ok (run_reconfigure_same g1 hc)]
    exact ⟨_, _, rfl, ⟨h1.start, h1.ids, h1.dist, h1.steps, h1.next⟩⟩
  · simp only [if_neg h]
    exact ⟨_, _, rfl, ⟨h1.start, h1.ids, h1.dist, h1.steps, h1.next⟩⟩

theorem fit_applyOne {s : Srv} (g : Good cs H i s) (hs : Fit is s) : ∃ a s', applyOne s = (.ok a, s') ∧ Fit is s' := by
  unfold applyOne
  rw [bind_get]
  by_cases ha : s.canApply = true
  · rw [if_pos ha, bind_modify]
    have hlt : s.smCommit < s.log.next - 1 := by
      unfold Srv.canApply at ha
      rw [Bool.and_eq_true, decide_eq_true_eq, decide_eq_true_eq] at ha
      exact ha.2
    have g1 : Good cs H i { s with smCommit := s.smCommit + 1 } :=
      ⟨g.id, g.start, g.ids, g.servers, g.catching, g.steps, g.join, g.dist, g.conf, g.votes, g.matched⟩
    have h1 : Fit is { s with smCommit := s.smCommit + 1 } := ⟨hs.start, hs.ids, hs.dist, hs.steps, hs.next⟩
    obtain ⟨e, he⟩ := Log.get?_some (l := ({ s with smCommit := s.smCommit + 1 } : Srv).log) (i := s.smCommit + 1)
      (by rw [g1.start]; omega) (by show _ < s.log.next; omega)
    generalize ({ s with smCommit := s.smCommit + 1 } : Srv) = s1 at g1 h1 he
    rw [run_bind_ok (entryToApply_some he)]
    have hmem : e ∈ s1.log.ents := by
      rw [get?_one g1.start (by omega)] at he
      exact List.mem_of_getElem? he
    have h2 : ∃ a s', applyEntry (s.smCommit + 1) e s1 = (.ok a, s') ∧ Fit is s' := by
      have ap : applyEntry (s.smCommit + 1) e = match e.val with
        | .app _ => emit (.commit (s.smCommit + 1) e)
        | .conf c => commitConf c
        | _ => pure () := rfl
      rw [ap]
      rcases hv : e.val with d | c | c | k | _ | _
      · exact ⟨_, _, rfl, h1.emit _⟩
      · exact fit_commitConf g1 h1 (g1.conf e hmem c hv)
      all_goals exact ⟨_, _, rfl, h1⟩
    obtain ⟨a, s2, h3, h4⟩ := h2
    rw [run_bind_ok h3]
    have : snapshotAndCompact (s.smCommit + 1) s2 = (.ok ⟨⟩, s2) := by
      unfold snapshotAndCompact
      have hw : wantsSnapshot s2 (s.smCommit + 1) = false := by
        unfold wantsSnapshot
        rw [h4.dist]
        simp
      rw [bind_get, hw]
      rfl
    exact ⟨_, _, this, h4⟩
  · rw [if_neg ha]; exact ⟨_, _, rfl, hs⟩

/-! ## All inputs -/

/-- Inputs that could make the code stop before its end. -/
def Rough (s : Srv) : Input → Prop
  | .electionTimeout => s.role = .leader
  | .hbTimeout k => s.role = .leader ∧ k ∉ s.peers.map Peer.id
  | .peerResp _ r => r.type = .appendResp ∧ r.accepted = true ∧ s.role = .leader ∧ s.log.next < r.nextIdx
  | .req m => m.type = .appendReq ∧ s.role = .leader ∧ m.term = s.term
  | _ => False

/-- Every allowed input that is not rough is handled to the end. -/
theorem fit_run {s : Srv} (g : Good cs H i s) (hs : Fit is s) {x : Input} (ha : Allowed cs H i x) (hx : ¬ Rough s x) :
    ∃ s', x.run s = (.ok ⟨⟩, s') ∧ Fit is s' := by
  have unit : ∀ {m : R Unit}, (∃ a s', m s = (.ok a, s') ∧ Fit is s') → ∃ s', m s = (.ok ⟨⟩, s') ∧ Fit is s' := by
    rintro m ⟨a, s', h1, h2⟩; exact ⟨s', h1, h2⟩
  cases x with
  | req m =>
    refine fit_req hs ?_ fun h1 h2 h3 => hx ⟨h1, h2, h3⟩
    rcases ha with ⟨⟨_, _, h⟩, _⟩ | ⟨⟨_, _, h⟩, _⟩ | h | ⟨h, _⟩
    · exact .inl h
    · exact .inr (.inl h)
    · exact .inr (.inr (.inr h))
    · exact .inr (.inr (.inl h))
  | peerResp ty r =>
    refine unit ?_
    show ∃ a s', (rpcResult (.member r.src) ty true >>= fun _ => handlePeerResp r) s = _ ∧ _
    obtain ⟨a, s1, h1, h2⟩ := hale_rpcResult (.member r.src) ty true s hs
    obtain ⟨h3, h4⟩ := rpcResult_rest (.member r.src) ty true s
    rw [h1] at h3 h4
    rw [run_bind_ok h1]
    refine fit_handlePeerResp h2 ha.1 fun e1 e2 e3 => ?_
    have h3 : s1.log = s.log := h3
    have h4 : s1.role = s.role := h4
    rw [h3]
    rw [h4] at e3
    rcases Nat.lt_or_ge s.log.next r.nextIdx with h | h
    · exact absurd ⟨e1, e2, e3, h⟩ hx
    · exact h
  | extResp p ty r =>
    refine unit ?_
    show ∃ a s', (rpcResult p ty true >>= fun _ => handleExtResp r) s = _ ∧ _
    refine hale_bind (hale_rpcResult p ty true) (fun _ => ?_) s hs
    unfold handleExtResp
    have ht : r.type = .prevoteResp := ha
    rw [ht]
    exact hale_bind hale_get fun _ => hale_handlePrevoteResp r
  | peerErr r => exact unit (hale_rpcResult _ _ _ s hs)
  | extErr p r =>
    refine unit ?_
    show ∃ a s', (rpcResult p r.type false >>= fun _ => handleExtErr r) s = _ ∧ _
    refine hale_bind (hale_rpcResult p r.type false) (fun _ => ?_) s hs
    unfold handleExtErr
    have ht : r.type = .prevoteReq := ha
    rw [ht]
    exact hale_bind hale_get fun _ => hale_pure _
  | retry r => exact absurd ha id
  | electionTimeout => exact unit (fit_electionTimeout hs hx)
  | hbTimeout k =>
    refine unit ?_
    by_cases hl : s.role = .leader
    · refine fit_hbTimeout hs ?_
      rw [← hs.ids]
      exact Classical.not_not.1 fun hk => hx ⟨hl, hk⟩
    · show ∃ a s', handleHbTimeout (.member k) s = _ ∧ _
      unfold handleHbTimeout
      rw [bind_modPeer, bind_get]
      have : (s.setPeer (.member k) fun p => { p with hbArmed := false }).role ≠ .leader := hl
      rw [if_neg this]
      exact ⟨_, _, rfl, hs.setPeer (fun _ => rfl) fun _ _ h => h⟩
  | apply => exact unit (fit_applyOne g hs)
  | snapDone snp ok => exact absurd ha id
  | replicate d => exact unit (hale_bind (hale_replicateLog d) (fun _ => hale_pure _) s hs)
  | tick n => exact ⟨_, rfl, ⟨hs.start, hs.ids, hs.dist, hs.steps, hs.next⟩⟩

end

/-! ## The cluster -/

section
variable {C : Cluster} {w : World} {ps : Int → PS} {g : Ghost} {i : Int} {s : Srv} {x : Input}

theorem Cluster.Calm.reach (h : C.Calm w) : C.Reach w := by
  induction h with
  | init => exact .refl
  | step _ hi hd _ st ih => exact .step ih (.mk hi hd st)

theorem Good.fit {cs : List SrvCfg} {H : History} (h : Good cs H i s) (hn : s.role = .leader → NextOk s) :
    Fit ((cs.map SrvCfg.id).filter (· != i)) s := ⟨h.start, h.ids, h.dist, h.steps, hn⟩

theorem Good.still {cs : List SrvCfg} {H : History} (h : Good cs H i s) : Good cs H i { s with trace := [] } :=
  ⟨h.id, h.start, h.ids, h.servers, h.catching, h.steps, h.join, h.dist, h.conf, h.votes, h.matched⟩

/-- A leader gets no append request of its own term. -/
theorem Inv.no_rival (hC : C.Ok) (h : Inv C w ps g) (hi : i ∈ C.ids) (hs : (w.node i).up = some s) (hl : s.role = .leader)
    {m : Req} (hd : Deliver w.evs i (.req m)) (ht : m.type = .appendReq) : m.term ≠ s.term := by
  intro he
  cases hd with
  | @request ev _ h1 h2 h3 =>
    have hv := h.safe.logs.votes
    have hj : (ev.node, .send m) ∈ w.hist := mem_hist.2 ⟨ev, h1, rfl, h2⟩
    have h4 := hv.replicated hj ht
    rw [he] at h4
    obtain ⟨_, _, h5, _⟩ := h.leads hi ⟨s, hs, hl, rfl⟩
    have h6 := hv.one_leader hC.named h4 h5
    exact (hv.sent hj (by rw [ht]; decide)).2 (h3.trans h6.symm)
  | client h1 _ => rw [h1] at ht; cases ht

/-- A positive answer of the term of a leader does not say more than its log has. -/
theorem Inv.answer_le (h : Inv C w ps g) (hC : C.Ok) (hi : i ∈ C.ids) (hs : (w.node i).up = some s) (hl : s.role = .leader)
    {ty : MsgType} {r : Resp} (hd : Deliver w.evs i (.peerResp ty r)) (h1 : r.type = .appendResp) (h2 : r.accepted = true)
    (h3 : r.term = s.term) : r.nextIdx ≤ s.log.next := by
  have ha := h.linked.allowed hC h.safe.logs.votes hd
  obtain ⟨h4, _, h5⟩ := ha.2 h2
  have h5 := h5 h1
  have h6 := (h.safe.keep (k := r.src) (t := s.term) (n := r.nextIdx - 1) (.inl ⟨r, h4, h1, h2, h3, by omega⟩)).1
  obtain ⟨_, _, _, h7⟩ := h.leads hi ⟨s, hs, hl, rfl⟩
  obtain ⟨g1, ab⟩ := (h.linked.nodes i hi).up s hs
  rw [← ab] at h7
  have h7 : s.log.ents = g.llog s.term := h7
  rw [← h7] at h6
  have := g1.start
  unfold Log.next
  omega

theorem Inv.member (_ : Inv C w ps g) (hC : C.Ok) (hi : i ∈ C.ids) : Member C.servers i :=
  ⟨hC.nodup, hi, fun he => hC.named (he ▸ hi)⟩

/-- What is usual is not rough. -/
theorem Inv.smooth (hC : C.Ok) (h : Inv C w ps g) (hi : i ∈ C.ids) (hs : (w.node i).up = some s)
    (hd : Deliver w.evs i x) (hu : C.Usual i s x) : ¬ Rough { s with trace := [] } x := by
  obtain ⟨g1, _⟩ := (h.linked.nodes i hi).up s hs
  cases x with
  | req m => exact fun hx => h.no_rival hC hi hs hx.2.1 hd hx.1 hx.2.2
  | peerResp ty r =>
    rintro ⟨h1, h2, h3, h4⟩
    have := h.answer_le hC hi hs h3 hd h1 h2 (hu h3 h2)
    have h4 : s.log.next < r.nextIdx := h4
    omega
  | electionTimeout => exact hu
  | hbTimeout k =>
    rintro ⟨_, hk⟩
    refine hk ?_
    show k ∈ s.peers.map Peer.id
    rw [g1.ids]
    exact List.mem_filter.2 ⟨hu.1, by simpa using hu.2⟩
  | _ => exact id

/-- In calm executions no peer of a leader is believed to have entries the leader does not have. -/
theorem Cluster.Calm.next (hC : C.Ok) (h : C.Calm w) :
    ∀ i ∈ C.ids, ∀ s, (w.node i).up = some s → s.role = .leader → NextOk s := by
  induction h with
  | init => intro i _ s hs; cases hs
  | @step w j x es n hw hj hd hu st ih =>
    intro i hi s hs
    replace hs : (if i = j then n else w.node i).up = some s := hs
    by_cases hij : i = j
    · subst hij
      rw [if_pos rfl] at hs
      obtain ⟨ps, g, hinv⟩ := hw.reach.inv hC
      have hm := hinv.member hC hi
      have fin : ∀ {s0 : Srv} {y : Input}, (w.node i).up = some s0 → x = some y →
          ∃ s', y.run { s0 with trace := [] } = (.ok ⟨⟩, s') ∧ Fit (C.ids.filter (· != i)) s' := by
        intro s0 y h0 hy
        obtain ⟨g1, _⟩ := (hinv.linked.nodes i hi).up s0 h0
        exact fit_run g1.still (g1.still.fit (ih i hi s0 h0)) (hinv.linked.allowed hC hinv.safe.logs.votes (hd y hy))
          (hinv.smooth hC hi h0 (hd y hy) (hu s0 y h0 hy))
      rcases hn : w.node i with ⟨d, up⟩
      rw [hn] at st fin
      cases st with
      | @run _ s0 s' y hr =>
        cases hs
        obtain ⟨s1, h1, h2⟩ := fin rfl rfl
        rw [h1] at hr
        cases hr
        exact h2.next
      | @survive _ s0 s' y hr =>
        obtain ⟨s1, h1, _⟩ := fin rfl rfl
        rw [h1] at hr
        cases hr
      | crash => cases hs
      | boot => cases hs; intro hl; cases hl
    · rw [if_neg hij] at hs
      exact ih i hi s hs

end

end Cs.Raft
