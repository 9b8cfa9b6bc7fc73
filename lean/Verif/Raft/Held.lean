import Verif.Raft.Pres
import Verif.Raft.Spec
import Verif.Raft.Reconf

/-!
# Members that do not change

As long as nobody asks to add or to remove a server, all configurations a server has, stores and sends name the members `cs` it
started with, and its peers are the other members. This holds with snapshots, too: a snapshot carries a configuration.
-/

namespace Cs.Raft
open Cs

variable (cs : List SrvCfg) (me : Int)

def Config.Held (c : Config) : Prop := c.servers = cs
def Snap.Held (s : Snap) : Prop := s.config.Held cs
def Val.Held : Val → Prop
  | .conf c => c.Held cs
  | _ => True
def Entry.Held (e : Entry) : Prop := e.val.Held cs

structure Req.Held (r : Req) : Prop where
  entries : ∀ e ∈ r.entries, e.Held cs
  sync : ∀ q, r.sync = some q → q.snap.Held cs

def Peer.Held (p : Peer) : Prop := ∀ q, p.snpCtx = some q → q.1.Held cs

/-- The ids of the other members. -/
def others : List Int := (cs.map SrvCfg.id).filter fun i => i != me

/-- Nobody joins, nobody leaves. -/
structure Srv.Shape (s : Srv) : Prop where
  id : s.id = me
  ids : s.peers.map Peer.id = others cs me
  alone : s.srvToJoin = none
  stays : s.stepsToDown = 0
  mine : me ∈ cs.map SrvCfg.id

/-- All configurations a server has name the members. -/
structure Srv.Held (s : Srv) : Prop where
  shape : s.Shape cs me
  peers : ∀ p ∈ s.peers, p.Held cs
  config : s.config.Held cs
  log : ∀ e ∈ s.log.ents, e.Held cs
  last : ∀ q, s.lastSnap = some q → q.Held cs
  sm : ∀ q, s.smSnap = some q → q.Held cs

/-- Requests servers send when the members do not change. -/
def MsgType.usual : MsgType → Prop
  | .voteReq | .prevoteReq | .appendReq | .snpReq => True
  | _ => False

/-- All configurations that leave a server name the members, and the requests say who sent them and go to
others. (Answers are looked at
separately.) -/
def Eff.Held : Eff → Prop
  | .send r => r.src = me ∧ r.dst ≠ me ∧ r.type.usual ∧ r.Held cs
  | .saveConfig c => c.Held cs
  | .append e => e.Held cs
  | .writeAt _ e => e.Held cs
  | .applyPack _ es => ∀ e ∈ es, e.Held cs
  | .applySnp q => q.Held cs
  | .createSnp q => q.Held cs
  | .madeSnp q => q.Held cs
  | .reply _ => False
  | _ => True

/-- All configurations that reach a server name the members, and nobody asks for a change. -/
def Input.Held : Input → Prop
  | .req r => r.type = .clientReq ∧ (∀ e ∈ r.entries, e.Held cs) ∨ r.type.usual ∧ r.Held cs
  | .extResp _ _ r => r.type = .prevoteResp
  | .extErr _ r => r.type.usual
  | .retry _ => False
  | .snapDone q _ => q.Held cs
  | _ => True

structure Disk.Held (d : Disk) : Prop where
  config : d.config.Held cs
  log : ∀ e ∈ d.log.ents, e.Held cs
  snap : ∀ q, d.snap = some q → q.Held cs

variable {cs} {me}

/-- Handlers that hand on only what they get; the result satisfies `V`. -/
def Hld {α : Type} (cs : List SrvCfg) (me : Int) (m : R α) (V : α → Prop) : Prop := ∀ s : Srv, s.Held cs me →
  ((m s).2.Held cs me ∧ ∃ es, (m s).2.trace = s.trace ++ es ∧ ∀ e ∈ es, e.Held cs me) ∧ ∀ a, (m s).1 = .ok a → V a

variable {α β : Type}

theorem Srv.Shape.of {s s' : Srv} (h : s.Shape cs me) (h0 : s'.id = s.id) (h1 : s'.peers.map Peer.id = s.peers.map Peer.id)
    (h2 : s'.srvToJoin = s.srvToJoin) (h3 : s'.stepsToDown = s.stepsToDown) : s'.Shape cs me :=
  ⟨h0.trans h.id, h1.trans h.ids, h2.trans h.alone, h3.trans h.stays, h.mine⟩

theorem hld_bind {m : R α} {k : α → R β} {V : α → Prop} {W : β → Prop} (h1 : Hld cs me m V) (h2 : ∀ a, V a → Hld cs me (k a) W) :
    Hld cs me (m >>= k) W := by
  intro s hs
  obtain ⟨⟨a1, es, a2, a3⟩, a4⟩ := h1 s hs
  rw [run_bind]
  rcases hm : m s with ⟨e | a, s'⟩
  · rw [hm] at a1 a2
    exact ⟨⟨a1, es, a2, a3⟩, fun b hb => (by cases hb)⟩
  · rw [hm] at a1 a2 a4
    obtain ⟨⟨b1, fs, b2, b3⟩, b4⟩ := h2 a (a4 a rfl) s' a1
    have a2 : s'.trace = _ := a2
    exact ⟨⟨b1, es ++ fs, by rw [b2, a2, List.append_assoc], fun e he => (List.mem_append.1 he).elim (a3 e) (b3 e)⟩, b4⟩

theorem hld_pure {a : α} {V : α → Prop} (h : V a) : Hld cs me (pure a : R α) V := fun s hs =>
  ⟨⟨hs, [], (List.append_nil _).symm, fun _ h => (by cases h)⟩, fun b hb => by cases hb; exact h⟩
theorem hld_throw {e : Fault} {V : α → Prop} : Hld cs me (throw e : R α) V := fun s hs =>
  ⟨⟨hs, [], (List.append_nil _).symm, fun _ h => (by cases h)⟩, fun b hb => (by cases hb)⟩
theorem hld_get : Hld cs me (get : R Srv) (Srv.Held cs me) := fun s hs =>
  ⟨⟨hs, [], (List.append_nil _).symm, fun _ h => (by cases h)⟩, fun b hb => by cases hb; exact hs⟩
theorem hld_modify {f : Srv → Srv} (h : ∀ s, s.Held cs me → (f s).Held cs me ∧ (f s).trace = s.trace) :
    Hld cs me (modify f : R PUnit) fun _ => True := fun s hs =>
  ⟨⟨(h s hs).1, [], by rw [List.append_nil]; exact (h s hs).2, fun _ h => (by cases h)⟩, fun _ _ => trivial⟩
theorem hld_emit {e : Eff} (h : e.Held cs me) : Hld cs me (emit e) fun _ => True := fun s hs =>
  ⟨⟨⟨hs.1.of rfl rfl rfl rfl, hs.2, hs.3, hs.4, hs.5, hs.6⟩, [e], rfl, fun a ha => by rw [List.mem_singleton.1 ha]; exact h⟩, fun _ _ => trivial⟩
theorem hld_weak {m : R α} {V W : α → Prop} (h : Hld cs me m V) (hv : ∀ a, V a → W a) : Hld cs me m W := fun s hs =>
  ⟨(h s hs).1, fun a ha => hv a ((h s hs).2 a ha)⟩
theorem hld_any {m : R α} {V : α → Prop} (h : Hld cs me m V) : Hld cs me m fun _ => True := hld_weak h fun _ _ => trivial
theorem hld_ite {c : Prop} [Decidable c] {a b : R α} {V : α → Prop} (h1 : Hld cs me a V) (h2 : Hld cs me b V) :
    Hld cs me (if c then a else b) V := by
  split
  · exact h1
  · exact h2
theorem hld_forEach {f : α → R Unit} : ∀ {as : List α}, (∀ a ∈ as, Hld cs me (f a) fun _ => True) →
    Hld cs me (forEach f as) fun _ => True
  | [], _ => hld_pure trivial
  | _ :: _, h => hld_bind (h _ (List.mem_cons_self ..)) fun _ _ => hld_forEach fun b hb => h b (List.mem_cons_of_mem _ hb)
theorem hld_catch {m k : R Unit} (h1 : Hld cs me m fun _ => True) (h2 : Hld cs me k fun _ => True) :
    Hld cs me (catchThrown m k) fun _ => True := by
  intro s hs
  obtain ⟨⟨a1, es, a2, a3⟩, a4⟩ := h1 s hs
  unfold catchThrown
  rcases hm : m s with ⟨e | a, s'⟩
  · rw [hm] at a1 a2
    cases e with
    | thrown =>
      obtain ⟨⟨b1, fs, b2, b3⟩, b4⟩ := h2 s' a1
      have a2 : s'.trace = _ := a2
      exact ⟨⟨b1, es ++ fs, by rw [b2, a2, List.append_assoc], fun e he => (List.mem_append.1 he).elim (a3 e) (b3 e)⟩, b4⟩
    | _ => exact ⟨⟨a1, es, a2, a3⟩, fun _ _ => trivial⟩
  · rw [hm] at a1 a2
    exact ⟨⟨a1, es, a2, a3⟩, fun _ _ => trivial⟩

/-- Other fields are changed. -/
theorem Srv.Held.of {s s' : Srv} (h : s.Held cs me) (h0 : s'.id = s.id) (h1 : s'.peers = s.peers) (h2 : s'.srvToJoin = s.srvToJoin)
    (h3 : s'.stepsToDown = s.stepsToDown) (h4 : s'.config = s.config) (h5 : s'.log = s.log) (h6 : s'.lastSnap = s.lastSnap)
    (h7 : s'.smSnap = s.smSnap) : s'.Held cs me :=
  ⟨h.1.of h0 (by rw [h1]) h2 h3, by rw [h1]; exact h.2, by rw [h4]; exact h.3, by rw [h5]; exact h.4,
    by rw [h6]; exact h.5, by rw [h7]; exact h.6⟩

theorem hld_set {f : Srv → Srv} (h : ∀ s, (f s).id = s.id ∧ (f s).peers = s.peers ∧ (f s).srvToJoin = s.srvToJoin ∧
    (f s).stepsToDown = s.stepsToDown ∧ (f s).config = s.config ∧ (f s).log = s.log ∧ (f s).lastSnap = s.lastSnap ∧
    (f s).smSnap = s.smSnap ∧ (f s).trace = s.trace) : Hld cs me (modify f : R PUnit) fun _ => True := by
  refine hld_modify fun s hs => ?_
  obtain ⟨h0, h1, h2, h3, h4, h5, h6, h7, h8⟩ := h s
  exact ⟨hs.of h0 h1 h2 h3 h4 h5 h6 h7, h8⟩

/-- A step that changes only fields without descriptions. -/
macro "plainH" : tactic => `(tactic| exact hld_set fun _ => ⟨rfl, rfl, rfl, rfl, rfl, rfl, rfl, rfl, rfl⟩)

theorem hld_die {V : α → Prop} {c : Int} : Hld cs me (die c : R α) V := hld_bind (hld_emit trivial) fun _ _ => hld_throw
theorem hld_saveState : Hld cs me saveState fun _ => True := hld_bind hld_get fun _ _ => hld_emit trivial

theorem find_held {s : Srv} (h : s.Held cs me) {i : Int} {p : Peer} (hp : s.findPeer i = some p) : p.Held cs ∧ p.id = i :=
  ⟨h.peers p (List.mem_of_find?_eq_some hp), by have := List.find?_some hp; simpa using this⟩

theorem peer_held {s : Srv} (h : s.Held cs me) {r : PeerRef} {p : Peer} (hp : s.peer r = some p) : p.Held cs := by
  cases r with
  | member i => exact (find_held h hp).1
  | joining =>
    have : s.srvToJoin = some p := hp
    rw [h.shape.alone] at this
    cases this

theorem hld_getPeer {r : PeerRef} : Hld cs me (getPeer r) (Peer.Held cs) := by
  unfold getPeer
  refine hld_bind hld_get fun s hs => ?_
  split
  · exact hld_pure (peer_held hs (by assumption))
  · exact hld_throw

theorem not_other {i : Int} (h : i ∈ others cs me) : i ≠ me := by
  have := (List.mem_filter.1 h).2
  simpa using this

/-- A peer is another server. -/
theorem hld_getOther {r : PeerRef} : Hld cs me (getPeer r) fun p => p.Held cs ∧ p.id ≠ me := by
  unfold getPeer
  refine hld_bind hld_get fun s hs => ?_
  split
  · rename_i p hp
    refine hld_pure ⟨peer_held hs hp, not_other (cs := cs) ?_⟩
    rw [← hs.shape.ids]
    cases r with
    | member i => exact List.mem_map_of_mem (List.mem_of_find?_eq_some hp)
    | joining =>
      have : s.srvToJoin = some p := hp
      rw [hs.shape.alone] at this
      cases this
  · exact hld_throw

theorem hld_peerIds : Hld cs me peerIds fun ids => ∀ i ∈ ids, i ≠ me :=
  hld_bind hld_get fun _ hs => hld_pure fun _ hi => not_other (cs := cs) (hs.shape.ids ▸ hi)
theorem hld_anyIds : Hld cs me peerIds fun _ => True := hld_any hld_peerIds

theorem setPeer_held {s : Srv} (h : s.Held cs me) {r : PeerRef} {f : Peer → Peer}
    (hf : ∀ p : Peer, (f p).cfg = p.cfg ∧ (p.Held cs → (f p).Held cs)) :
    (s.setPeer r f).Held cs me ∧ (s.setPeer r f).trace = s.trace := by
  cases r with
  | member i =>
    refine ⟨⟨h.1.of rfl ?_ rfl rfl, fun p hp => ?_, h.3, h.4, h.5, h.6⟩, rfl⟩
    · show (s.peers.map fun p => if p.id == i then f p else p).map Peer.id = _
      rw [List.map_map]
      apply List.map_congr_left
      intro p _
      show Peer.id (if p.id == i then f p else p) = p.id
      split
      · unfold Peer.id; rw [(hf p).1]
      · rfl
    · obtain ⟨q, hq, rfl⟩ := List.mem_map.1 hp
      split
      · exact (hf q).2 (h.peers q hq)
      · exact h.peers q hq
  | joining =>
    have : s.setPeer .joining f = s := by
      show { s with srvToJoin := s.srvToJoin.map f } = s
      have := h.shape.alone
      rcases s with ⟨⟩
      simp only at this
      subst this
      rfl
    rw [this]
    exact ⟨h, rfl⟩

theorem hld_modPeer {r : PeerRef} {f : Peer → Peer} (hf : ∀ p : Peer, (f p).cfg = p.cfg ∧ (p.Held cs → (f p).Held cs)) :
    Hld cs me (modPeer r f) fun _ => True := hld_modify fun _ hs => setPeer_held hs hf

/-- A step that changes a peer, but not its description. -/
macro "peerH" : tactic => `(tactic| exact hld_modPeer fun _ => ⟨rfl, fun hp => hp⟩)

/-- Take a handler apart. -/
macro "hld" "using" ls:term,* : tactic => `(tactic|
  repeat' first
  | with_reducible assumption
  | exact trivial
  $[| with_reducible apply $ls]*
  | with_reducible exact hld_get
  | with_reducible exact hld_throw
  | with_reducible exact hld_set fun _ => ⟨rfl, rfl, rfl, rfl, rfl, rfl, rfl, rfl, rfl⟩
  | (with_reducible refine hld_modPeer fun _ => ⟨?_, fun hp => ?_⟩) <;> first | rfl | exact hp
  | with_reducible apply hld_pure
  | with_reducible apply hld_bind
  | with_reducible apply hld_forEach
  | with_reducible apply hld_catch
  | with_reducible intro _
  | split)

theorem get_held {s : Srv} (h : s.Held cs me) {i : Nat} {e : Entry} (he : s.log.get? i = some e) : e.Held cs := by
  unfold Log.get? at he
  split at he
  · cases he
  · exact h.log e (List.mem_of_getElem? he)

theorem hld_logAppend {e : Entry} (h : e.Held cs) : Hld cs me (logAppend e) fun _ => True := by
  refine hld_bind (hld_modify fun s hs => ⟨⟨hs.1.of rfl rfl rfl rfl, hs.2, hs.3, fun a ha => ?_, hs.5, hs.6⟩, rfl⟩) fun _ _ => hld_emit h
  rcases List.mem_append.1 ha with ha | ha
  · exact hs.log a ha
  · rw [List.mem_singleton.1 ha]; exact h

theorem replace_held {s : Srv} (hs : s.Held cs me) {i : Nat} {es : List Entry} (h : ∀ e ∈ es, e.Held cs) :
    ∀ e ∈ (s.log.replaceFrom i es).ents, e.Held cs := by
  intro a ha
  rcases List.mem_append.1 ha with ha | ha
  · exact hs.log a (List.mem_of_mem_take ha)
  · exact h a ha

theorem hld_logWriteAt {i : Nat} {e : Entry} (h : e.Held cs) : Hld cs me (logWriteAt i e) fun _ => True :=
  hld_bind (hld_modify fun s hs => ⟨⟨hs.1.of rfl rfl rfl rfl, hs.2, hs.3, replace_held hs fun a ha => by
    rw [List.mem_singleton.1 ha]; exact h, hs.5, hs.6⟩, rfl⟩) fun _ _ => hld_emit h

theorem hld_termAt {i : Nat} : Hld cs me (termAt i) fun _ => True := by
  unfold termAt
  hld using hld_die
theorem hld_entryAt {i : Nat} : Hld cs me (entryAt i) (Entry.Held cs) := by
  unfold entryAt
  refine hld_bind hld_get fun s hs => ?_
  split
  · exact hld_pure (get_held hs (by assumption))
  · exact hld_throw
theorem hld_entryToApply {i : Nat} : Hld cs me (entryToApply i) (Entry.Held cs) := by
  unfold entryToApply
  refine hld_bind hld_get fun s hs => ?_
  split
  · exact hld_pure (get_held hs (by assumption))
  · split
    · exact hld_die
    · exact hld_throw
theorem hld_logCompact {i : Nat} : Hld cs me (logCompact i) fun _ => True := by
  unfold logCompact
  hld using hld_emit, hld_modify
  rename_i hs
  exact ⟨⟨hs.1.of rfl rfl rfl rfl, hs.2, hs.3, fun e he => hs.log e (List.mem_of_mem_drop he), hs.5, hs.6⟩, rfl⟩
theorem hld_termForLog {i : Nat} : Hld cs me (termForLog i) fun _ => True := by
  unfold termForLog
  hld using hld_die, hld_termAt
theorem hld_restart : Hld cs me restartElectionTimer fun _ => True := by
  unfold restartElectionTimer
  hld using
theorem hld_stopTimer : Hld cs me stopElectionTimer fun _ => True := by
  unfold stopElectionTimer
  plainH
theorem hld_enableHb {r : PeerRef} : Hld cs me (enableHb r) fun _ => True := by
  unfold enableHb
  hld using
theorem hld_joinNone : Hld cs me (modify fun s => { s with srvToJoin := none } : R PUnit) fun _ => True :=
  hld_modify fun _ hs => ⟨⟨⟨hs.1.1, hs.1.2, rfl, hs.1.4, hs.1.5⟩, hs.2, hs.3, hs.4, hs.5, hs.6⟩, rfl⟩
theorem hld_becomeFollower : Hld cs me becomeFollower fun _ => True := by
  unfold becomeFollower
  refine hld_bind (by plainH) fun _ _ => ?_
  refine hld_bind (hld_modify fun s hs => ⟨⟨hs.1.of rfl ?_ rfl rfl, fun p hp => ?_, hs.3, hs.4, hs.5, hs.6⟩, rfl⟩) fun _ _ => ?_
  · show (s.peers.map disableHb).map Peer.id = _
    rw [List.map_map]
    rfl
  · obtain ⟨q, hq, rfl⟩ := List.mem_map.1 hp
    exact hs.peers q hq
  refine hld_bind hld_joinNone fun _ _ => ?_
  refine hld_bind (by plainH) fun _ _ => ?_
  exact hld_bind hld_restart fun _ _ => hld_emit trivial
theorem hld_updateTerm {t : Nat} : Hld cs me (updateTerm t) fun _ => True := by
  unfold updateTerm
  hld using hld_saveState, hld_becomeFollower

/-! ## Sending -/

theorem hld_chooseSnap {r : PeerRef} {i : Nat} : Hld cs me (chooseSnap r i) fun _ => True := by
  unfold chooseSnap
  refine hld_bind hld_get fun s hs => hld_bind hld_getPeer fun p _ => ?_
  refine hld_ite ?_ (hld_pure trivial)
  rcases hl : s.lastSnap with _ | snp
  · exact hld_throw
  · exact hld_ite hld_die (hld_ite hld_die (hld_modPeer fun q => ⟨rfl, fun _ x hx => by cases hx; exact hs.last snp hl⟩))

theorem hld_createSync {r : PeerRef} {i t c : Nat} :
    Hld cs me (createSyncSnapshotReq r i t c) fun q => q.src = me ∧ q.dst ≠ me ∧ q.type.usual ∧ q.Held cs := by
  unfold createSyncSnapshotReq
  refine hld_bind hld_chooseSnap fun _ _ => hld_bind hld_get fun s hs => hld_bind hld_getOther fun p hp => ?_
  split
  · exact hld_throw
  · rename_i snp off hc
    split
    · exact hld_throw
    split
    · exact hld_die
    · refine hld_pure ⟨hs.shape.id, hp.2, trivial, fun e he => ?_, fun q hq => ?_⟩
      · rw [List.mem_singleton.1 he]; exact trivial
      · cases hq; exact hp.1 _ hc

theorem hld_entriesFrom {i : Nat} : Hld cs me (entriesFrom i) fun es => ∀ e ∈ es, e.Held cs := by
  unfold entriesFrom
  refine hld_bind hld_get fun s hs => ?_
  split
  · exact hld_pure fun _ h => (by cases h)
  split
  · exact hld_throw
  · exact hld_pure fun e he => hs.log e (List.mem_of_mem_drop (List.mem_of_mem_take he))

theorem hld_appendReqFrom {r : PeerRef} {i : Nat} : Hld cs me (appendReqFrom r i) fun q => q.src = me ∧ q.dst ≠ me ∧ q.type.usual ∧ q.Held cs := by
  unfold appendReqFrom
  refine hld_bind hld_termForLog fun t _ => hld_bind hld_entriesFrom fun es hes => hld_bind hld_get fun s hs =>
    hld_bind hld_getOther fun p hp => hld_pure ⟨hs.shape.id, hp.2, trivial, hes, fun q hq => (by cases hq)⟩

theorem hld_createAppend {r : PeerRef} : Hld cs me (createAppendReq r) fun q => q.src = me ∧ q.dst ≠ me ∧ q.type.usual ∧ q.Held cs := by
  unfold createAppendReq
  refine hld_bind hld_get fun s _ => hld_bind (hld_modPeer fun p => ?_) fun _ _ => hld_bind hld_getPeer fun p _ => ?_
  · split
    · exact ⟨rfl, fun h => h⟩
    · exact ⟨rfl, fun h => h⟩
  split
  · exact hld_die
  split
  · exact hld_createSync
  · exact hld_appendReqFrom

theorem hld_requestAppend {r : PeerRef} : Hld cs me (requestAppend r) fun _ => True := by
  unfold requestAppend
  refine hld_bind hld_getPeer fun p _ => ?_
  split
  · exact hld_pure trivial
  · exact hld_bind (by peerH) fun _ _ => hld_bind hld_createAppend fun q hq => hld_bind (hld_emit hq) fun _ _ => hld_pure trivial

theorem hld_commitNotify {i : Int} : Hld cs me (commitNotify i) fun _ => True := by
  unfold commitNotify
  hld using hld_requestAppend
theorem hld_commit {n : Nat} : Hld cs me (commit n) fun _ => True := by
  unfold commit
  hld using hld_anyIds, hld_commitNotify, hld_emit
theorem hld_requestAppendTo {i : Int} : Hld cs me (requestAppendTo i) fun _ => True := by
  unfold requestAppendTo
  hld using hld_requestAppend
theorem hld_requestAppendAll : Hld cs me requestAppendAll fun _ => True := by
  unfold requestAppendAll
  hld using hld_commit, hld_anyIds, hld_requestAppendTo

/-! ## Elections -/

theorem hld_leaderPeer {i : Int} : Hld cs me (leaderPeer i) fun _ => True := by
  unfold leaderPeer
  exact hld_bind hld_get fun _ _ => hld_bind (hld_modPeer fun _ => ⟨rfl, fun _ _ h => (by cases h)⟩) fun _ _ => hld_enableHb
theorem hld_initialConf : Hld cs me initialConf fun _ => True := by
  unfold initialConf
  refine hld_bind hld_get fun s _ => ?_
  split
  · refine hld_bind (hld_modify fun s hs => ⟨⟨hs.1.of rfl rfl rfl rfl, hs.2, hs.3, hs.4, hs.5, hs.6⟩, rfl⟩) fun _ _ =>
      hld_bind hld_get fun s hs => hld_bind (hld_logAppend hs.config) fun _ _ => ?_
    plainH
  · exact hld_pure trivial
theorem hld_becomeLeader : Hld cs me becomeLeader fun _ => True := by
  unfold becomeLeader
  hld using hld_stopTimer, hld_anyIds, hld_leaderPeer, hld_initialConf, hld_requestAppendAll, hld_emit, hld_joinNone
theorem hld_askVote {ty : MsgType} {i : Int} (h : ty.usual) (hi : i ≠ me) : Hld cs me (askVote ty i) fun _ => True := by
  unfold askVote
  hld using hld_termForLog, hld_emit
  rename_i hs _ _
  exact ⟨Srv.Shape.id (Srv.Held.shape hs), hi, h, fun e he => (by cases he), fun q hq => (by cases hq)⟩
theorem hld_voteSelf : Hld cs me voteSelf fun _ => True := by
  unfold voteSelf
  hld using hld_saveState
theorem hld_askForVotes : Hld cs me askForVotes fun _ => True := by
  unfold askForVotes
  refine hld_bind hld_get fun s _ => hld_ite ?_ (hld_bind hld_peerIds fun ids h => hld_forEach fun i hi => hld_askVote trivial (h i hi))
  hld using hld_becomeLeader
theorem hld_startTerm : Hld cs me startTerm fun _ => True := by
  unfold startTerm
  hld using hld_saveState
theorem hld_becomeCandidate : Hld cs me becomeCandidate fun _ => True := by
  unfold becomeCandidate requestVote rearm
  hld using hld_startTerm, hld_voteSelf, hld_askForVotes, hld_restart
theorem hld_requestPrevote : Hld cs me requestPrevote fun _ => True := by
  unfold requestPrevote
  refine hld_bind hld_get fun s _ => ?_
  split
  · exact hld_becomeCandidate
  · exact hld_bind (by plainH) fun _ _ => hld_bind hld_peerIds fun ids h => hld_forEach fun i hi => hld_askVote trivial (h i hi)
theorem hld_electionTimeout : Hld cs me handleElectionTimeout fun _ => True := by
  unfold handleElectionTimeout
  refine hld_bind (by plainH) fun _ _ => hld_bind hld_get fun s hs => ?_
  rw [if_neg (by rw [hs.shape.stays]; exact Int.lt_irrefl 0)]
  hld using hld_die, hld_restart, hld_requestPrevote, hld_becomeCandidate
theorem hld_hbTimeout {r : PeerRef} : Hld cs me (handleHbTimeout r) fun _ => True := by
  unfold handleHbTimeout
  refine hld_bind (by peerH) fun _ _ => hld_bind hld_get fun s _ => ?_
  split
  · refine hld_bind hld_requestAppend fun _ _ => hld_modPeer fun p => ?_
    split <;> exact ⟨rfl, fun h => h⟩
  · exact hld_pure trivial

/-! ## Requests -/

theorem hld_skipSame : ∀ {i : Nat} {es : List Entry}, (∀ e ∈ es, e.Held cs) → Hld cs me (skipSame i es) fun q => ∀ e ∈ q.2, e.Held cs
  | _, [], _ => hld_pure fun _ h => (by cases h)
  | i, e :: es, h => by
    unfold skipSame
    refine hld_bind hld_get fun s _ => ?_
    split
    · refine hld_bind hld_termAt fun t _ => ?_
      split
      · exact hld_skipSame fun a ha => h a (List.mem_cons_of_mem _ ha)
      · exact hld_pure h
    · exact hld_pure h
theorem hld_rollbackOld {i : Nat} : Hld cs me (rollbackOld i) fun _ => True := by
  unfold rollbackOld
  hld using hld_entryAt, hld_emit
theorem hld_noteNew {i : Nat} {e : Entry} : Hld cs me (noteNew i e) fun _ => True := by
  unfold noteNew
  hld using hld_emit
theorem hld_overwriteOld : ∀ {i : Nat} {es : List Entry}, (∀ e ∈ es, e.Held cs) → Hld cs me (overwriteOld i es) fun q => ∀ e ∈ q, e.Held cs
  | _, [], _ => hld_pure fun _ h => (by cases h)
  | i, e :: es, h => by
    unfold overwriteOld
    refine hld_bind hld_get fun s _ => ?_
    split
    · exact hld_bind hld_rollbackOld fun _ _ => hld_bind (hld_logWriteAt (h e (List.mem_cons_self ..))) fun _ _ =>
        hld_bind hld_noteNew fun _ _ => hld_overwriteOld fun a ha => h a (List.mem_cons_of_mem _ ha)
    · exact hld_pure h
theorem hld_appendNew : ∀ {es : List Entry}, (∀ e ∈ es, e.Held cs) → Hld cs me (appendNew es) fun _ => True
  | [], _ => hld_pure trivial
  | e :: es, h => by
    unfold appendNew
    exact hld_bind hld_get fun s _ => hld_bind (hld_logAppend (h e (List.mem_cons_self ..))) fun _ _ =>
      hld_bind hld_noteNew fun _ _ => hld_appendNew fun a ha => h a (List.mem_cons_of_mem _ ha)
theorem hld_storeEntries {r : Req} (h : r.Held cs) : Hld cs me (storeEntries r) fun _ => True := by
  unfold storeEntries
  exact hld_bind (hld_skipSame h.entries) fun q hq => hld_bind (hld_overwriteOld hq) fun es hes => hld_appendNew hes
theorem hld_hearLeader {r : Req} : Hld cs me (hearLeader r) fun _ => True := by
  unfold hearLeader
  hld using hld_becomeFollower, hld_die, hld_restart
theorem hld_logOkay {r : Req} : Hld cs me (logOkay r) fun _ => True := by
  unfold logOkay
  hld using hld_termForLog
theorem hld_appendEntries {r : Req} (h : r.Held cs) : Hld cs me (handleAppendEntries r) fun _ => True := by
  have := hld_storeEntries (me := me) h
  unfold handleAppendEntries
  hld using hld_hearLeader, hld_logOkay, hld_commit
theorem hld_voteReq {r : Req} : Hld cs me (handleVoteReq r) fun _ => True := by
  unfold handleVoteReq
  hld using hld_saveState
theorem hld_prevoteReq {r : Req} : Hld cs me (handlePrevoteReq r) fun _ => True := by
  unfold handlePrevoteReq
  hld using hld_saveState
theorem hld_isLeader : Hld cs me isLeader fun _ => True := by
  unfold isLeader
  hld using hld_saveState
theorem hld_appendClient : ∀ {es : List Entry}, (∀ e ∈ es, e.Held cs) → Hld cs me (appendClient es) fun _ => True
  | [], _ => hld_pure trivial
  | e :: es, h => by
    unfold appendClient
    refine hld_bind hld_get fun s _ => hld_bind (hld_logAppend ?_) fun _ _ =>
      hld_bind (hld_emit trivial) fun _ _ => hld_appendClient fun a ha => h a (List.mem_cons_of_mem _ ha)
    exact h e (List.mem_cons_self ..)
theorem hld_cliReq {r : Req} (h : ∀ e ∈ r.entries, e.Held cs) : Hld cs me (handleCliReq r) fun _ => True := by
  have := hld_appendClient (me := me) h
  unfold handleCliReq
  hld using hld_isLeader, hld_requestAppendAll
theorem hld_reconfigure {c : Config} (h : c.Held cs) : Hld cs me (reconfigure c) fun _ => True := by
  unfold reconfigure
  refine hld_bind hld_get fun s hs => ?_
  have h0 : ∀ i, c.has i = true ↔ i ∈ cs.map SrvCfg.id := by
    intro i
    have h : c.servers = cs := h
    rw [has_iff, h, List.mem_map]
  have h1 : (c.servers.filter fun x => (s.findPeer x.id).isNone && x.id != s.id) = [] := by
    rw [List.filter_eq_nil_iff]
    intro x hx hn
    rw [Bool.and_eq_true, hs.shape.id] at hn
    have h2 : x.id ∈ s.peers.map Peer.id := by
      rw [hs.shape.ids]
      refine List.mem_filter.2 ⟨List.mem_map.2 ⟨x, ?_, rfl⟩, hn.2⟩
      have h : c.servers = cs := h
      rw [← h]; exact hx
    have h3 : (s.findPeer x.id).isSome = true := mem_ids_find.2 h2
    rw [Option.isNone_iff_eq_none] at hn
    rw [hn.1] at h3
    cases h3
  have h2 : (((s.peers.map Peer.id).filter fun i => !c.has i) ++ if c.has s.id then [] else [s.id]) = [] := by
    rw [if_pos ((h0 _).2 (by rw [hs.shape.id]; exact hs.shape.mine)), List.append_nil, List.filter_eq_nil_iff]
    intro i hi hn
    rw [hs.shape.ids] at hi
    rw [(h0 i).2 (List.mem_filter.1 hi).1] at hn
    cases hn
  rw [h1, h2]
  exact hld_bind (hld_pure (V := fun _ => True) trivial) fun _ _ => hld_bind (hld_pure (V := fun _ => True) trivial) fun _ _ =>
    hld_modify fun s hs => ⟨⟨hs.1.of rfl rfl rfl rfl, hs.2, h, hs.4, hs.5, hs.6⟩, rfl⟩
theorem hld_installSnapshot {q : Snap} (h : q.Held cs) : Hld cs me (installSnapshot q) fun _ => True := by
  unfold installSnapshot
  refine hld_bind hld_get fun s _ => ?_
  split
  · exact hld_die
  refine hld_bind hld_logCompact fun ok _ => ?_
  split
  · refine hld_bind hld_stopTimer fun _ _ => hld_bind (hld_emit h) fun _ _ => ?_
    split
    · exact hld_die
    refine hld_bind (hld_modify fun s hs => ⟨⟨hs.1.of rfl rfl rfl rfl, hs.2, hs.3, hs.4, hs.5, fun x hx => ?_⟩, rfl⟩) fun _ _ =>
      hld_bind (hld_reconfigure h) fun _ _ => hld_bind hld_get fun s hs => hld_bind (hld_emit hs.config) fun _ _ =>
      hld_bind (by plainH) fun _ _ => hld_bind hld_saveState fun _ _ =>
      hld_bind (hld_modify fun s hs => ⟨⟨hs.1.of rfl rfl rfl rfl, hs.2, hs.3, hs.4, fun x hx => ?_, hs.6⟩, rfl⟩) fun _ _ =>
      hld_bind hld_restart fun _ _ => hld_pure trivial
    · cases hx; exact h
    · cases hx; exact hs.config
  · exact hld_pure trivial
theorem hld_snapshotSync {q : SnpSync} (h : q.snap.Held cs) : Hld cs me (handleSnapshotSync q) fun _ => True := by
  have := hld_installSnapshot (me := me) h
  unfold handleSnapshotSync
  hld using hld_emit, hld_die
theorem hld_hearSnapshotLeader {r : Req} : Hld cs me (hearSnapshotLeader r) fun _ => True := by
  unfold hearSnapshotLeader
  hld using hld_becomeFollower, hld_die, hld_restart
theorem hld_installReq {r : Req} (h : r.Held cs) : Hld cs me (handleInstallSnapshot r) fun _ => True := by
  unfold handleInstallSnapshot
  refine hld_bind hld_hearSnapshotLeader fun _ _ => hld_bind hld_get fun s _ => ?_
  split
  · exact hld_pure trivial
  split
  · rename_i q _ hq
    split
    · exact hld_pure trivial
    · refine hld_bind (hld_snapshotSync (h.sync _ hq)) fun _ _ => ?_
      split <;> exact hld_pure trivial
  · exact hld_pure trivial
theorem hld_extended {r : Req} (hu : r.type.usual) (h : r.Held cs) :
    Hld cs me (handleExtended r) fun _ => True := by
  unfold handleExtended
  split
  iterate 5
    rename_i ht
    rw [ht] at hu
    cases hu
  · exact hld_installReq h
  · exact hld_prevoteReq
  · exact hld_die
theorem hld_hearTerm {r : Req} : Hld cs me (hearTerm r) fun _ => True := by
  unfold hearTerm
  hld using hld_updateTerm
  refine hld_modify fun s hs => ⟨⟨⟨hs.1.1, hs.1.2, hs.1.3, ?_, hs.1.5⟩, hs.2, hs.3, hs.4, hs.5, hs.6⟩, rfl⟩
  show (if 0 < s.stepsToDown then 2 else s.stepsToDown) = 0
  rw [hs.shape.stays]
  rfl
theorem hld_processReq {r : Req} (h : Input.Held cs (.req r)) : Hld cs me (processReq r) fun _ => True := by
  unfold processReq
  refine hld_bind hld_hearTerm fun _ _ => ?_
  unfold dispatch
  rcases h with ⟨ht, h⟩ | ⟨hu, h⟩
  · rw [ht]; exact hld_cliReq h
  · split
    · exact hld_appendEntries h
    · exact hld_voteReq
    · exact hld_cliReq h.entries
    · exact hld_extended hu h

/-! ## Responses -/

theorem hld_acceptedResp {r : Resp} : Hld cs me (acceptedResp r) fun _ => True := by
  unfold acceptedResp
  hld using hld_commit, hld_getPeer
theorem hld_refusedResp {r : Resp} : Hld cs me (refusedResp r) fun _ => True := by
  refine hld_bind (hld_modPeer fun p => ?_) fun _ _ => hld_pure trivial
  split
  · exact ⟨rfl, fun h => h⟩
  split <;> exact ⟨rfl, fun h => h⟩
theorem hld_appendResp {r : Resp} : Hld cs me (handleAppendResp r) fun _ => True := by
  unfold handleAppendResp
  hld using hld_acceptedResp, hld_refusedResp, hld_requestAppendTo
theorem hld_acceptedSnpResp {r : Resp} : Hld cs me (acceptedSnpResp r) fun _ => True := by
  unfold acceptedSnpResp
  refine hld_bind hld_getPeer fun p hp => ?_
  split
  · exact hld_pure trivial
  · rename_i snp off hc
    split
    · exact hld_bind (hld_modPeer fun p => ⟨rfl, fun _ _ h => (by cases h)⟩) fun _ _ =>
        hld_bind hld_get fun _ _ => hld_pure trivial
    · exact hld_bind (hld_modPeer fun q => ⟨rfl, fun _ x hx => by cases hx; exact hp (snp, off) hc⟩) fun _ _ => hld_pure trivial
theorem hld_snpResp {r : Resp} : Hld cs me (handleSnpResp r) fun _ => True := by
  unfold handleSnpResp
  refine hld_bind hld_get fun s _ => hld_ite (hld_pure trivial) ?_
  have : ∀ b : Bool, Hld cs me (do
      let s ← get
      if s.role = .leader ∧ b = true then requestAppendTo r.src else pure ()) fun _ => True := fun b =>
    hld_bind hld_get fun _ _ => hld_ite hld_requestAppendTo (hld_pure trivial)
  exact hld_ite (hld_bind hld_acceptedSnpResp fun b _ => this b) (hld_bind (hld_pure (V := fun _ => True) trivial) fun b _ => this b)
theorem hld_votingResp {r : Resp} : Hld cs me (handleVotingResp r) fun _ => True := by
  unfold handleVotingResp
  hld using hld_becomeLeader
theorem hld_peerResp {r : Resp} : Hld cs me (handlePeerResp r) fun _ => True := by
  unfold handlePeerResp dispatchResp
  hld using hld_updateTerm, hld_votingResp, hld_appendResp, hld_snpResp, hld_die
theorem hld_prevoteResp {r : Resp} : Hld cs me (handlePrevoteResp r) fun _ => True := by
  unfold handlePrevoteResp
  hld using hld_becomeCandidate, hld_restart
theorem hld_extResp {r : Resp} (h : r.type = .prevoteResp) : Hld cs me (handleExtResp r) fun _ => True := by
  unfold handleExtResp
  rw [h]
  exact hld_bind hld_get fun _ _ => hld_prevoteResp
theorem hld_extErr {r : Req} (h : r.type.usual) : Hld cs me (handleExtErr r) fun _ => True := by
  unfold handleExtErr
  refine hld_bind hld_get fun s hs => ?_
  split
  all_goals first
    | (rename_i ht; rw [ht] at h; cases h; done)
    | exact hld_pure trivial
theorem hld_rpcResult {q : PeerRef} {ty : MsgType} {ok : Bool} : Hld cs me (rpcResult q ty ok) fun _ => True := by
  unfold rpcResult
  refine hld_bind hld_get fun s _ => hld_bind (hld_modPeer fun p => ?_) fun _ _ => hld_modPeer fun p => ?_
  · split <;> exact ⟨rfl, fun h => h⟩
  · split <;> exact ⟨rfl, fun h => h⟩

/-! ## The commit thread -/

theorem hld_commitConf {c : Config} (h : c.Held cs) : Hld cs me (commitConf c) fun _ => True := by
  have := hld_reconfigure (me := me) h
  unfold commitConf
  refine hld_bind (hld_emit h) fun _ _ => ?_
  hld using
theorem hld_findConf {i : Nat} : ∀ {n : Nat} {c : Config}, c.Held cs → Hld cs me (findConf i n c) (Config.Held cs)
  | 0, _, _ => hld_throw
  | n + 1, c, h => by
    unfold findConf
    refine hld_bind hld_get fun s _ => ?_
    split
    · refine hld_bind hld_entryAt fun e he => ?_
      unfold Entry.Held at he
      split
      · rename_i c' hv
        rw [hv] at he
        exact hld_findConf he
      · exact hld_throw
    · exact hld_pure h
theorem hld_confForSnap {i : Nat} : Hld cs me (confForSnap i) (Config.Held cs) := by
  unfold confForSnap
  refine hld_bind hld_get fun s hs => hld_bind (hld_findConf hs.config) fun c hc => ?_
  split
  · split
    · exact hld_die
    · exact hld_pure (hs.last _ (by assumption))
  split
  · exact hld_die
  · exact hld_pure hc
theorem hld_startSnapshot {i : Nat} : Hld cs me (startSnapshot i) fun _ => True := by
  unfold startSnapshot
  exact hld_bind hld_confForSnap fun c hc => hld_bind hld_termAt fun t _ => hld_emit hc
theorem hld_snapshotAndCompact {i : Nat} : Hld cs me (snapshotAndCompact i) fun _ => True := by
  unfold snapshotAndCompact
  hld using hld_startSnapshot
theorem hld_keepSnap {q : Snap} (h : q.Held cs) : Hld cs me (keepSnap q) fun _ => True := by
  unfold keepSnap
  refine hld_bind hld_get fun s _ => hld_bind
    (hld_modify fun s hs => ⟨⟨hs.1.of rfl rfl rfl rfl, hs.2, hs.3, hs.4, hs.5, fun x hx => ?_⟩, rfl⟩) fun _ _ => hld_emit h
  cases hx; exact h
theorem hld_onSnapshotCompleted {q : Snap} {ok : Bool} (h : q.Held cs) : Hld cs me (onSnapshotCompleted q ok) fun _ => True := by
  have : Hld cs me (modify fun s => { s with lastSnap := some q } : R PUnit) fun _ => True :=
    hld_modify fun s hs => ⟨⟨hs.1.of rfl rfl rfl rfl, hs.2, hs.3, hs.4, fun x hx => by cases hx; exact h, hs.6⟩, rfl⟩
  unfold onSnapshotCompleted
  hld using hld_logCompact
theorem hld_applyEntry {i : Nat} {e : Entry} (h : e.Held cs) : Hld cs me (applyEntry i e) fun _ => True := by
  unfold applyEntry
  unfold Entry.Held at h
  split
  · exact hld_emit trivial
  · rename_i c hv
    rw [hv] at h
    exact hld_commitConf h
  · exact hld_pure trivial
theorem hld_applyOne : Hld cs me applyOne fun _ => True := by
  unfold applyOne
  refine hld_bind hld_get fun s _ => ?_
  split
  · exact hld_bind (by plainH) fun _ _ => hld_bind hld_entryToApply fun e he => hld_bind (hld_applyEntry he) fun _ _ =>
      hld_snapshotAndCompact
  · exact hld_pure trivial
theorem hld_replicateLog {d : Nat} : Hld cs me (replicateLog d) fun _ => True := by
  unfold replicateLog
  refine hld_bind hld_isLeader fun b _ => ?_
  split
  · exact hld_bind hld_get fun s _ => hld_bind (hld_logAppend (by exact trivial)) fun _ _ =>
      hld_bind hld_requestAppendAll fun _ _ => hld_pure trivial
  · exact hld_pure trivial

/-- All inputs but requests. -/
theorem hld_run {x : Input} (h : x.Held cs) (hr : ∀ r, x ≠ .req r) : Hld cs me x.run fun _ => True := by
  cases x with
  | req r => exact absurd rfl (hr r)
  | peerResp ty r => exact hld_bind hld_rpcResult fun _ _ => hld_peerResp
  | extResp p ty r => exact hld_bind hld_rpcResult fun _ _ => hld_extResp h
  | peerErr r => exact hld_rpcResult
  | extErr p r => exact hld_bind hld_rpcResult fun _ _ => hld_extErr h
  | retry r => exact h.elim
  | electionTimeout => exact hld_electionTimeout
  | hbTimeout i => exact hld_hbTimeout
  | apply => exact hld_applyOne
  | snapDone q ok =>
    show Hld cs me (if ok then _ else _) _
    split
    · exact hld_bind (hld_keepSnap h) fun _ _ => hld_onSnapshotCompleted h
    · exact hld_onSnapshotCompleted h
  | replicate d => exact hld_bind hld_replicateLog fun _ _ => hld_pure trivial
  | tick n => exact hld_set fun _ => ⟨rfl, rfl, rfl, rfl, rfl, rfl, rfl, rfl, rfl⟩

/-! ## Histories -/

theorem Disk.Held.after {d : Disk} (h : d.Held cs) {e : Eff} (hf : e.Held cs me ∨ ∃ a, e = .reply a) : (d.after e).Held cs := by
  rcases hf with he | ⟨a, rfl⟩
  rotate_left
  · exact ⟨h.1, h.2, h.3⟩
  cases e with
  | saveConfig c => exact ⟨he, h.2, h.3⟩
  | append e =>
    refine ⟨h.1, fun a ha => ?_, h.3⟩
    rcases List.mem_append.1 ha with ha | ha
    · exact h.log a ha
    · rw [List.mem_singleton.1 ha]; exact he
  | writeAt i e =>
    refine ⟨h.1, fun a ha => ?_, h.3⟩
    rcases List.mem_append.1 ha with ha | ha
    · exact h.log a (List.mem_of_mem_take ha)
    · rw [List.mem_singleton.1 ha]; exact he
  | applyPack i es =>
    refine ⟨h.1, fun a ha => ?_, h.3⟩
    rcases List.mem_append.1 ha with ha | ha
    · exact h.log a (List.mem_of_mem_take ha)
    · exact he a ha
  | compact i => exact ⟨h.1, fun a ha => h.log a (List.mem_of_mem_drop ha), h.3⟩
  | applySnp q => exact ⟨h.1, h.2, fun x hx => by cases hx; exact he⟩
  | madeSnp q => exact ⟨h.1, h.2, fun x hx => by cases hx; exact he⟩
  | _ => exact ⟨h.1, h.2, h.3⟩

theorem Disk.Held.afterAll {es : List Eff} : ∀ {d : Disk}, d.Held cs → (∀ e ∈ es, e.Held cs me ∨ ∃ a, e = .reply a) → (d.afterAll es).Held cs := by
  induction es with
  | nil => exact fun h _ => h
  | cons e es ih => exact fun h he => ih (h.after (he e (List.mem_cons_self ..))) fun a ha => he a (List.mem_cons_of_mem _ ha)

theorem bootPeers_ids {id : Int} {pr : Params} : ∀ {xs : List SrvCfg} {ps : List Peer}, (xs.map SrvCfg.id).Nodup →
    (∀ c ∈ xs, c.id ∉ ps.map Peer.id) →
    (xs.foldl (bootPeer id pr) ps).map Peer.id = ps.map Peer.id ++ (xs.map SrvCfg.id).filter fun i => i != id
  | [], ps, _, _ => (List.append_nil _).symm
  | c :: xs, ps, hn, hd => by
    rw [List.map_cons, List.nodup_cons] at hn
    have hf : (ps.find? (·.id == c.id)).isSome = false := by
      rcases hf : (ps.find? (·.id == c.id)).isSome with _ | _
      · exact hf
      · exact absurd (mem_ids_find.1 hf) (hd c (List.mem_cons_self ..))
    show (xs.foldl (bootPeer id pr) (bootPeer id pr ps c)).map Peer.id = _
    by_cases hc : c.id = id
    · have h1 : bootPeer id pr ps c = ps := by unfold bootPeer; rw [if_pos (.inl hc)]
      rw [h1, bootPeers_ids hn.2 fun x hx => hd x (List.mem_cons_of_mem _ hx), List.map_cons, List.filter_cons_of_neg (by simp [hc])]
    · have h1 : bootPeer id pr ps c = ps ++ [{ cfg := c, hbInterval := pr.hbInterval }] := by
        unfold bootPeer; rw [if_neg]; rw [hf]; rintro (h | h)
        · exact hc h
        · cases h
      rw [h1, bootPeers_ids hn.2, List.map_cons, List.filter_cons_of_pos (by simp [hc]), List.map_append, List.append_assoc]
      · rfl
      · intro x hx hm
        rw [List.map_append] at hm
        rcases List.mem_append.1 hm with hm | hm
        · exact hd x (List.mem_cons_of_mem _ hx) hm
        · have : x.id = c.id := List.mem_singleton.1 hm
          exact hn.1 (this ▸ List.mem_map.2 ⟨x, hx, rfl⟩)

theorem bootPeers_held {id : Int} {pr : Params} : ∀ {xs : List SrvCfg} {ps : List Peer}, (∀ p ∈ ps, p.Held cs) →
    ∀ p ∈ xs.foldl (bootPeer id pr) ps, p.Held cs
  | [], _, h => h
  | c :: xs, ps, h => by
    refine bootPeers_held (xs := xs) (ps := bootPeer id pr ps c) fun p hp => ?_
    unfold bootPeer at hp
    split at hp
    · exact h p hp
    · rcases List.mem_append.1 hp with hp | hp
      · exact h p hp
      · rw [List.mem_singleton.1 hp]
        exact fun _ h => (by cases h)

theorem Disk.Held.boot {d : Disk} (h : d.Held cs) (hn : (cs.map SrvCfg.id).Nodup) (hm : me ∈ cs.map SrvCfg.id) (pr : Params)
    (env : Env) : (boot me pr env d).Held cs me := by
  have hc : d.config.servers = cs := h.config
  refine ⟨⟨rfl, ?_, rfl, rfl, hm⟩, bootPeers_held fun _ h => (by cases h), h.config, h.log, h.snap, h.snap⟩
  show (d.config.servers.foldl (bootPeer me pr) []).map Peer.id = _
  rw [hc, bootPeers_ids hn fun _ _ h => (by cases h)]
  rfl

/-- A node all of whose configurations name the members. -/
structure Node.Held (cs : List SrvCfg) (me : Int) (n : Node) : Prop where
  disk : n.disk.Held cs
  up : ∀ s, n.up = some s → s.Held cs me

/-- One input: configurations, effects, and the answer to a request. -/
theorem Srv.Held.input {s : Srv} (hs : s.Held cs me) {x : Input} (hx : x.Held cs) :
    (x.run { s with trace := [] }).2.Held cs me ∧
    (∀ e ∈ (x.run { s with trace := [] }).2.trace, e.Held cs me ∨ ∃ a, e = .reply a) ∧
    ∀ q a, x = .req q → .reply a ∈ (x.run { s with trace := [] }).2.trace → ∃ s1 s2 : Srv, s1.id = me ∧ processReq q s1 = (.ok a, s2) := by
  have h0 : ({ s with trace := [] } : Srv).Held cs me := hs.of rfl rfl rfl rfl rfl rfl rfl rfl
  have ht : ({ s with trace := [] } : Srv).trace = [] := rfl
  generalize ({ s with trace := [] } : Srv) = s0 at h0 ht
  by_cases hr : ∃ r, x = .req r
  · obtain ⟨q, rfl⟩ := hr
    obtain ⟨⟨a1, es, a2, a3⟩, _⟩ := hld_processReq hx s0 h0
    have he : (Input.req q).run = processReq q >>= fun a => emit (.reply a) := rfl
    rw [he, run_bind]
    rw [ht, List.nil_append] at a2
    rcases hp : processReq q s0 with ⟨e | a, s1⟩
    · rw [hp] at a1 a2
      have a2 : s1.trace = es := a2
      refine ⟨a1, fun e he => .inl (a3 e (a2 ▸ he)), fun q' a _ hm => ?_⟩
      have hf : False := a3 (.reply a) (a2 ▸ hm)
      exact hf.elim
    · rw [hp] at a1 a2
      have a2 : s1.trace = es := a2
      have hm : ∀ e ∈ s1.trace ++ [.reply a], e.Held cs me ∨ e = .reply a := by
        intro e he
        rcases List.mem_append.1 he with he | he
        · exact .inl (a3 e (a2 ▸ he))
        · exact .inr (List.mem_singleton.1 he)
      refine ⟨Srv.Held.of a1 rfl rfl rfl rfl rfl rfl rfl rfl, fun e he => (hm e he).imp (fun h => h) fun h => ⟨a, h⟩, ?_⟩
      intro q' a' hq ha
      cases hq
      rcases hm _ ha with h | h
      · exact h.elim
      · cases h; exact ⟨s0, s1, h0.shape.id, hp⟩
  · have hr' : ∀ r, x ≠ .req r := fun r h => hr ⟨r, h⟩
    obtain ⟨⟨a1, es, a2, a3⟩, _⟩ := hld_run hx hr' s0 h0
    rw [ht, List.nil_append] at a2
    rw [a2]
    exact ⟨a1, fun e he => .inl (a3 e he), fun q a hq _ => absurd hq (hr' q)⟩

theorem Node.Held.step {c : Setup} (hn : (cs.map SrvCfg.id).Nodup) (hm : c.id ∈ cs.map SrvCfg.id) {n1 n2 : Node}
    {x : Option Input} {es : List Eff} (h : n1.Held cs c.id) (hs : n1.Step c x es n2)
    (hx : ∀ i, x = some i → i.Held cs) : n2.Held cs c.id ∧ (∀ e ∈ es, e.Held cs c.id ∨ ∃ a, e = .reply a) ∧
      ∀ q a, x = some (.req q) → .reply a ∈ es → ∃ s1 s2 : Srv, s1.id = c.id ∧ processReq q s1 = (.ok a, s2) := by
  cases hs with
  | run hr =>
    obtain ⟨a1, a2, a3⟩ := (h.up _ rfl).input (hx _ rfl)
    rw [hr] at a1 a2 a3
    exact ⟨⟨h.disk.afterAll a2, fun s hs => by cases hs; exact a1⟩, a2, fun q a hq => a3 q a (by cases hq; rfl)⟩
  | survive hr =>
    obtain ⟨a1, a2, a3⟩ := (h.up _ rfl).input (hx _ rfl)
    rw [hr] at a1 a2 a3
    exact ⟨⟨h.disk.afterAll a2, fun s hs => by cases hs; exact a1⟩, a2, fun q a hq => a3 q a (by cases hq; rfl)⟩
  | crash hp =>
    obtain ⟨_, a2, a3⟩ := (h.up _ rfl).input (hx _ rfl)
    have h2 : ∀ e ∈ es, e.Held cs c.id ∨ ∃ a, e = .reply a := fun e he => a2 e (hp.subset he)
    exact ⟨⟨h.disk.afterAll h2, fun s hs => (by cases hs)⟩, h2, fun q a hq ha => a3 q a (by cases hq; rfl) (hp.subset ha)⟩
  | boot =>
    exact ⟨⟨h.disk, fun s hs => by cases hs; exact h.disk.boot hn hm ..⟩, fun _ h => (by cases h), fun _ _ h => (by cases h)⟩

end Cs.Raft
