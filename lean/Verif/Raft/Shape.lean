import Verif.Raft.Pres
import Verif.Raft.Spec

/-!
# The form of messages

What each type of request carries, and that servers keep to it: `Shaped P` says that an entry of the log is a command or a
configuration, that a request carries what belongs in it, and that every description of a server satisfies `P`.
-/

namespace Cs.Raft
open Cs

variable (P : SrvCfg → Prop)

/-- A configuration. -/
def Config.Shaped (c : Config) : Prop := ∀ x ∈ c.servers, P x
/-- A snapshot. -/
def Snap.Shaped (s : Snap) : Prop := s.config.Shaped P
/-- What can be in a log: commands and configurations. -/
def Val.Plain : Val → Prop
  | .app _ => True
  | .conf c => c.Shaped P
  | _ => False
/-- An entry of a log. -/
def Entry.Shaped (e : Entry) : Prop := e.val.Plain P
/-- What can be in a request of this type. -/
def Val.In : MsgType → Val → Prop
  | .appendReq, v => v.Plain P
  | .clientReq, v => v.Plain P
  | .joinReq, .conf c => c.Shaped P
  | .addReq, .srv c => P c
  | .rmReq, .rmId _ => True
  | .syncReq, .logPack => True
  | .snpReq, .snpSync => True
  | _, _ => False

/-- A request. A log pack and a snapshot block are there if and only if an entry announces them. -/
structure Req.Shaped (r : Req) : Prop where
  entries : ∀ e ∈ r.entries, e.val.In P r.type
  pack : ∀ e ∈ r.pack, e.Shaped P
  packed : r.pack = [] ∨ ∃ e ∈ r.entries, e.val = .logPack
  sync : ∀ q, r.sync = some q → q.snap.Shaped P ∧ ∃ e ∈ r.entries, e.val = .snpSync
  block : (∃ e ∈ r.entries, e.val = .snpSync) → r.sync ≠ none

/-- What a server knows of another one. -/
structure Peer.Shaped (p : Peer) : Prop where
  cfg : P p.cfg
  ctx : ∀ q, p.snpCtx = some q → q.1.Shaped P

/-- What a server keeps. -/
structure Srv.Shaped (s : Srv) : Prop where
  peers : ∀ p ∈ s.peers, p.Shaped P
  joining : ∀ p, s.srvToJoin = some p → p.Shaped P
  adding : ∀ c, s.confToAdd = some c → P c
  config : s.config.Shaped P
  log : ∀ e ∈ s.log.ents, e.Shaped P
  last : ∀ q, s.lastSnap = some q → q.Shaped P
  sm : ∀ q, s.smSnap = some q → q.Shaped P

/-- What leaves a server. -/
def Eff.Shaped : Eff → Prop
  | .send r => r.Shaped P
  | .saveConfig c => c.Shaped P
  | .append e => e.Shaped P
  | .writeAt _ e => e.Shaped P
  | .applyPack _ es => ∀ e ∈ es, e.Shaped P
  | .applySnp q => q.Shaped P
  | .createSnp q => q.Shaped P
  | .madeSnp q => q.Shaped P
  | _ => True

/-- What reaches a server. -/
def Input.Shaped : Input → Prop
  | .req r => r.Shaped P
  | .retry r => r.Shaped P
  | .snapDone q _ => q.Shaped P
  | _ => True

/-- What is on the disk of a server. -/
structure Disk.Shaped (d : Disk) : Prop where
  config : d.config.Shaped P
  log : ∀ e ∈ d.log.ents, e.Shaped P
  snap : ∀ q, d.snap = some q → q.Shaped P

variable {P}

/-- Only a snapshot request carries a snapshot block. -/
theorem Val.In.snp {t : MsgType} (h : Val.In P t .snpSync) : t = .snpReq := by
  cases t <;> first | rfl | cases h

/-- Requests without log pack and snapshot block. -/
theorem Req.shaped_simple {r : Req} (h1 : ∀ e ∈ r.entries, e.val.In P r.type) (h2 : r.type ≠ .snpReq) (h3 : r.pack = [])
    (h4 : r.sync = none) : r.Shaped P :=
  ⟨h1, fun e he => (by rw [h3] at he; cases he), .inl h3, fun q hq => (by rw [h4] at hq; cases hq), fun ⟨e, he, hv⟩ => by
    have := h1 e he
    rw [hv] at this
    exact absurd this.snp h2⟩

/-- Requests without entries. -/
theorem Req.shaped_bare {r : Req} (h1 : r.entries = []) (h3 : r.pack = []) (h4 : r.sync = none) : r.Shaped P :=
  ⟨fun e he => (by rw [h1] at he; cases he), fun e he => (by rw [h3] at he; cases he), .inl h3,
    fun q hq => (by rw [h4] at hq; cases hq), fun ⟨e, he, _⟩ => (by rw [h1] at he; cases he)⟩

/-- A configuration in a request. -/
theorem Val.In.conf {t : MsgType} {c : Config} (h : Val.In P t (.conf c)) : c.Shaped P := by
  cases t <;> first | exact h | cases h

/-- A server in a request. -/
theorem Val.In.srv {t : MsgType} {c : SrvCfg} (h : Val.In P t (.srv c)) : P c := by
  cases t <;> first | exact h | cases h

/-- Handlers that keep to the form; the result satisfies `V`. -/
def Shp {α : Type} (P : SrvCfg → Prop) (m : R α) (V : α → Prop) : Prop := ∀ s : Srv, s.Shaped P →
  ((m s).2.Shaped P ∧ ∃ es, (m s).2.trace = s.trace ++ es ∧ ∀ e ∈ es, e.Shaped P) ∧ ∀ a, (m s).1 = .ok a → V a

variable {α β : Type}

theorem sha_bind {m : R α} {k : α → R β} {V : α → Prop} {W : β → Prop} (h1 : Shp P m V) (h2 : ∀ a, V a → Shp P (k a) W) :
    Shp P (m >>= k) W := by
  intro s hs
  obtain ⟨⟨a1, es, a2, a3⟩, a4⟩ := h1 s hs
  rw [run_bind]
  rcases hm : m s with ⟨e | a, s'⟩
  · rw [hm] at a1 a2
    exact ⟨⟨a1, es, a2, a3⟩, fun b hb => (by cases hb)⟩
  · rw [hm] at a1 a2 a4
    obtain ⟨⟨b1, fs, b2, b3⟩, b4⟩ := h2 a (a4 a rfl) s' a1
    have a2 : s'.trace = _ := a2
    exact ⟨⟨b1, es ++ fs, by rw [b2, a2, List.append_assoc], fun e he => (List.mem_append.1 he).elim (a3 e) (b3 e)⟩, b4⟩

theorem sha_pure {a : α} {V : α → Prop} (h : V a) : Shp P (pure a : R α) V := fun s hs =>
  ⟨⟨hs, [], (List.append_nil _).symm, fun _ h => (by cases h)⟩, fun b hb => by cases hb; exact h⟩
theorem sha_throw {e : Fault} {V : α → Prop} : Shp P (throw e : R α) V := fun s hs =>
  ⟨⟨hs, [], (List.append_nil _).symm, fun _ h => (by cases h)⟩, fun b hb => (by cases hb)⟩
theorem sha_get : Shp P (get : R Srv) (Srv.Shaped P) := fun s hs =>
  ⟨⟨hs, [], (List.append_nil _).symm, fun _ h => (by cases h)⟩, fun b hb => by cases hb; exact hs⟩
theorem sha_modify {f : Srv → Srv} (h : ∀ s, s.Shaped P → (f s).Shaped P ∧ (f s).trace = s.trace) :
    Shp P (modify f : R PUnit) fun _ => True := fun s hs =>
  ⟨⟨(h s hs).1, [], by rw [List.append_nil]; exact (h s hs).2, fun _ h => (by cases h)⟩, fun _ _ => trivial⟩
theorem sha_emit {e : Eff} (h : e.Shaped P) : Shp P (emit e) fun _ => True := fun s hs =>
  ⟨⟨⟨hs.1, hs.2, hs.3, hs.4, hs.5, hs.6, hs.7⟩, [e], rfl, fun a ha => by rw [List.mem_singleton.1 ha]; exact h⟩, fun _ _ => trivial⟩
theorem sha_weak {m : R α} {V W : α → Prop} (h : Shp P m V) (hv : ∀ a, V a → W a) : Shp P m W := fun s hs =>
  ⟨(h s hs).1, fun a ha => hv a ((h s hs).2 a ha)⟩
theorem sha_any {m : R α} {V : α → Prop} (h : Shp P m V) : Shp P m fun _ => True := sha_weak h fun _ _ => trivial
theorem sha_ite {c : Prop} [Decidable c] {a b : R α} {V : α → Prop} (h1 : Shp P a V) (h2 : Shp P b V) :
    Shp P (if c then a else b) V := by
  split
  · exact h1
  · exact h2
theorem sha_forEach {f : α → R Unit} : ∀ {as : List α}, (∀ a ∈ as, Shp P (f a) fun _ => True) →
    Shp P (forEach f as) fun _ => True
  | [], _ => sha_pure trivial
  | _ :: _, h => sha_bind (h _ (List.mem_cons_self ..)) fun _ _ => sha_forEach fun b hb => h b (List.mem_cons_of_mem _ hb)
theorem sha_catch {m k : R Unit} (h1 : Shp P m fun _ => True) (h2 : Shp P k fun _ => True) :
    Shp P (catchThrown m k) fun _ => True := by
  intro s hs
  obtain ⟨⟨a1, es, a2, a3⟩, a4⟩ := h1 s hs
  unfold catchThrown
  rcases hm : m s with ⟨e | a, s'⟩
  · rw [hm] at a1 a2
    cases e with
    | thrown =>
      obtain ⟨⟨b1, fs, b2, b3⟩, b4⟩ := h2 s' a1
      have a2 : s'.trace = _ := a2
      exact ⟨⟨b1, es ++ fs, by rw [b2, a2, List.append_assoc], fun e he => (List.mem_append.1 he).elim (a3 e) (b3 e)⟩, b4⟩
    | _ => exact ⟨⟨a1, es, a2, a3⟩, fun _ _ => trivial⟩
  · rw [hm] at a1 a2
    exact ⟨⟨a1, es, a2, a3⟩, fun _ _ => trivial⟩

/-- Fields without descriptions are changed. -/
theorem Srv.Shaped.of {s s' : Srv} (h : s.Shaped P) (h1 : s'.peers = s.peers) (h2 : s'.srvToJoin = s.srvToJoin)
    (h3 : s'.confToAdd = s.confToAdd) (h4 : s'.config = s.config) (h5 : s'.log = s.log) (h6 : s'.lastSnap = s.lastSnap)
    (h7 : s'.smSnap = s.smSnap) : s'.Shaped P :=
  ⟨by rw [h1]; exact h.1, by rw [h2]; exact h.2, by rw [h3]; exact h.3, by rw [h4]; exact h.4, by rw [h5]; exact h.5,
    by rw [h6]; exact h.6, by rw [h7]; exact h.7⟩

theorem sha_set {f : Srv → Srv} (h : ∀ s, (f s).peers = s.peers ∧ (f s).srvToJoin = s.srvToJoin ∧ (f s).confToAdd = s.confToAdd ∧
    (f s).config = s.config ∧ (f s).log = s.log ∧ (f s).lastSnap = s.lastSnap ∧ (f s).smSnap = s.smSnap ∧
    (f s).trace = s.trace) : Shp P (modify f : R PUnit) fun _ => True := by
  refine sha_modify fun s hs => ?_
  obtain ⟨h1, h2, h3, h4, h5, h6, h7, h8⟩ := h s
  exact ⟨hs.of h1 h2 h3 h4 h5 h6 h7, h8⟩

/-- A step that changes only fields without descriptions. -/
macro "shaplainly" : tactic => `(tactic| exact sha_set fun _ => ⟨rfl, rfl, rfl, rfl, rfl, rfl, rfl, rfl⟩)

theorem sha_die {V : α → Prop} {c : Int} : Shp P (die c : R α) V := sha_bind (sha_emit trivial) fun _ _ => sha_throw
theorem sha_saveState : Shp P saveState fun _ => True := sha_bind sha_get fun _ _ => sha_emit trivial

theorem find_shaped {s : Srv} (h : s.Shaped P) {i : Int} {p : Peer} (hp : s.findPeer i = some p) : p.Shaped P ∧ p.id = i :=
  ⟨h.peers p (List.mem_of_find?_eq_some hp), by have := List.find?_some hp; simpa using this⟩

theorem peer_shaped {s : Srv} (h : s.Shaped P) {r : PeerRef} {p : Peer} (hp : s.peer r = some p) : p.Shaped P := by
  cases r with
  | member i => exact (find_shaped h hp).1
  | joining => exact h.joining p hp

theorem sha_getPeer {r : PeerRef} : Shp P (getPeer r) (Peer.Shaped P) := by
  unfold getPeer
  refine sha_bind sha_get fun s hs => ?_
  split
  · exact sha_pure (peer_shaped hs (by assumption))
  · exact sha_throw

theorem sha_peerIds : Shp P peerIds fun _ => True :=
  sha_bind sha_get fun _ _ => sha_pure trivial

theorem setPeer_shaped {s : Srv} (h : s.Shaped P) {r : PeerRef} {f : Peer → Peer} (hf : ∀ p : Peer, p.Shaped P → (f p).Shaped P) :
    (s.setPeer r f).Shaped P ∧ (s.setPeer r f).trace = s.trace := by
  cases r with
  | member i =>
    refine ⟨⟨fun p hp => ?_, h.2, h.3, h.4, h.5, h.6, h.7⟩, rfl⟩
    obtain ⟨q, hq, rfl⟩ := List.mem_map.1 hp
    split
    · exact hf q (h.peers q hq)
    · exact h.peers q hq
  | joining =>
    refine ⟨⟨h.1, fun p hp => ?_, h.3, h.4, h.5, h.6, h.7⟩, rfl⟩
    obtain ⟨q, hq, rfl⟩ := Option.map_eq_some_iff.1 hp
    exact hf q (h.joining q hq)

theorem sha_modPeer {r : PeerRef} {f : Peer → Peer} (hf : ∀ p : Peer, p.Shaped P → (f p).Shaped P) :
    Shp P (modPeer r f) fun _ => True := sha_modify fun _ hs => setPeer_shaped hs hf

/-- A step that changes a peer, but not its description. -/
macro "shapeerly" : tactic => `(tactic| exact sha_modPeer fun _ hp => ⟨hp.1, hp.2⟩)

/-- Take a handler apart. -/
macro "sha" "using" ls:term,* : tactic => `(tactic|
  repeat' first
  | with_reducible assumption
  | exact trivial
  $[| with_reducible apply $ls]*
  | with_reducible exact sha_get
  | with_reducible exact sha_throw
  | with_reducible exact sha_set fun _ => ⟨rfl, rfl, rfl, rfl, rfl, rfl, rfl, rfl⟩
  | with_reducible exact sha_modPeer fun _ hp => ⟨hp.1, hp.2⟩
  | with_reducible apply sha_pure
  | with_reducible apply sha_bind
  | with_reducible apply sha_forEach
  | with_reducible apply sha_catch
  | with_reducible intro _
  | split)

theorem get_shaped {s : Srv} (h : s.Shaped P) {i : Nat} {e : Entry} (he : s.log.get? i = some e) : e.Shaped P := by
  unfold Log.get? at he
  split at he
  · cases he
  · exact h.log e (List.mem_of_getElem? he)

theorem sha_logAppend {e : Entry} (h : e.Shaped P) : Shp P (logAppend e) fun _ => True := by
  refine sha_bind (sha_modify fun s hs => ⟨⟨hs.1, hs.2, hs.3, hs.4, fun a ha => ?_, hs.6, hs.7⟩, rfl⟩) fun _ _ => sha_emit h
  rcases List.mem_append.1 ha with ha | ha
  · exact hs.log a ha
  · rw [List.mem_singleton.1 ha]; exact h

theorem replace_shaped {s : Srv} (hs : s.Shaped P) {i : Nat} {es : List Entry} (h : ∀ e ∈ es, e.Shaped P) :
    ∀ e ∈ (s.log.replaceFrom i es).ents, e.Shaped P := by
  intro a ha
  rcases List.mem_append.1 ha with ha | ha
  · exact hs.log a (List.mem_of_mem_take ha)
  · exact h a ha

theorem sha_logWriteAt {i : Nat} {e : Entry} (h : e.Shaped P) : Shp P (logWriteAt i e) fun _ => True :=
  sha_bind (sha_modify fun s hs => ⟨⟨hs.1, hs.2, hs.3, hs.4, replace_shaped hs fun a ha => by
    rw [List.mem_singleton.1 ha]; exact h, hs.6, hs.7⟩, rfl⟩) fun _ _ => sha_emit h

theorem sha_termAt {i : Nat} : Shp P (termAt i) fun _ => True := by
  unfold termAt
  sha using sha_die
theorem sha_entryAt {i : Nat} : Shp P (entryAt i) (Entry.Shaped P) := by
  unfold entryAt
  refine sha_bind sha_get fun s hs => ?_
  split
  · exact sha_pure (get_shaped hs (by assumption))
  · exact sha_throw
theorem sha_entryToApply {i : Nat} : Shp P (entryToApply i) (Entry.Shaped P) := by
  unfold entryToApply
  refine sha_bind sha_get fun s hs => ?_
  split
  · exact sha_pure (get_shaped hs (by assumption))
  · split
    · exact sha_die
    · exact sha_throw
theorem sha_logApplyPack {i : Nat} {es : List Entry} (h : ∀ e ∈ es, e.Shaped P) : Shp P (logApplyPack i es) fun _ => True := by
  unfold logApplyPack
  sha using sha_emit, sha_modify
  · rename_i hs
    exact ⟨⟨hs.1, hs.2, hs.3, hs.4, replace_shaped hs h, hs.6, hs.7⟩, rfl⟩
  · exact h
theorem sha_logCompact {i : Nat} : Shp P (logCompact i) fun _ => True := by
  unfold logCompact
  sha using sha_emit, sha_modify
  rename_i hs
  exact ⟨⟨hs.1, hs.2, hs.3, hs.4, fun e he => hs.log e (List.mem_of_mem_drop he), hs.6, hs.7⟩, rfl⟩
theorem sha_termForLog {i : Nat} : Shp P (termForLog i) fun _ => True := by
  unfold termForLog
  sha using sha_die, sha_termAt
theorem sha_restart : Shp P restartElectionTimer fun _ => True := by
  unfold restartElectionTimer
  sha using
theorem sha_stopTimer : Shp P stopElectionTimer fun _ => True := by
  unfold stopElectionTimer
  shaplainly
theorem sha_enableHb {r : PeerRef} : Shp P (enableHb r) fun _ => True := by
  unfold enableHb
  sha using
theorem sha_becomeFollower : Shp P becomeFollower fun _ => True := by
  unfold becomeFollower
  refine sha_bind (by shaplainly) fun _ _ => ?_
  refine sha_bind (sha_modify fun s hs => ⟨⟨fun p hp => ?_, hs.2, hs.3, hs.4, hs.5, hs.6, hs.7⟩, rfl⟩) fun _ _ => ?_
  · obtain ⟨q, hq, rfl⟩ := List.mem_map.1 hp
    exact ⟨(hs.peers q hq).1, (hs.peers q hq).2⟩
  refine sha_bind (sha_modify fun s hs => ⟨⟨hs.1, fun p hp => (by cases hp), hs.3, hs.4, hs.5, hs.6, hs.7⟩, rfl⟩) fun _ _ => ?_
  refine sha_bind (by shaplainly) fun _ _ => ?_
  exact sha_bind sha_restart fun _ _ => sha_emit trivial
theorem sha_updateTerm {t : Nat} : Shp P (updateTerm t) fun _ => True := by
  unfold updateTerm
  sha using sha_saveState, sha_becomeFollower

/-! ## Sending -/

theorem sha_chooseSnap {r : PeerRef} {i : Nat} : Shp P (chooseSnap r i) fun _ => True := by
  unfold chooseSnap
  refine sha_bind sha_get fun s hs => sha_bind sha_getPeer fun p _ => ?_
  refine sha_ite ?_ (sha_pure trivial)
  rcases hl : s.lastSnap with _ | snp
  · exact sha_throw
  · exact sha_ite sha_die (sha_ite sha_die (sha_modPeer fun q hq => ⟨hq.1, fun x hx => by cases hx; exact hs.last snp hl⟩))

theorem sha_createSync {r : PeerRef} {i t c : Nat} :
    Shp P (createSyncSnapshotReq r i t c) fun q => q.Shaped P := by
  unfold createSyncSnapshotReq
  refine sha_bind sha_chooseSnap fun _ _ => sha_bind sha_get fun s hs => sha_bind sha_getPeer fun p hp => ?_
  split
  · exact sha_throw
  · rename_i snp off hc
    split
    · exact sha_throw
    split
    · exact sha_die
    · refine sha_pure ⟨fun e he => ?_, fun e he => (by cases he), .inl rfl, fun q hq => ⟨?_, _, List.mem_singleton.2 rfl, rfl⟩,
        fun _ h => (by cases h)⟩
      · rw [List.mem_singleton.1 he]; exact trivial
      · cases hq; exact hp.ctx _ hc

theorem sha_entriesFrom {i : Nat} : Shp P (entriesFrom i) fun es => ∀ e ∈ es, e.Shaped P := by
  unfold entriesFrom
  refine sha_bind sha_get fun s hs => ?_
  split
  · exact sha_pure fun _ h => (by cases h)
  split
  · exact sha_throw
  · exact sha_pure fun e he => hs.log e (List.mem_of_mem_drop (List.mem_of_mem_take he))

theorem sha_appendReqFrom {r : PeerRef} {i : Nat} : Shp P (appendReqFrom r i) fun q => q.Shaped P := by
  unfold appendReqFrom
  refine sha_bind sha_termForLog fun t _ => sha_bind sha_entriesFrom fun es hes => sha_bind sha_get fun s _ =>
    sha_bind sha_getPeer fun p hp => sha_pure (Req.shaped_simple hes (fun h => (by cases h)) rfl rfl)

theorem sha_createAppend {r : PeerRef} : Shp P (createAppendReq r) fun q => q.Shaped P := by
  unfold createAppendReq
  refine sha_bind sha_get fun s _ => sha_bind (sha_modPeer fun p hp => ?_) fun _ _ => sha_bind sha_getPeer fun p _ => ?_
  · split
    · exact ⟨hp.1, hp.2⟩
    · exact hp
  split
  · exact sha_die
  split
  · exact sha_createSync
  · exact sha_appendReqFrom

theorem sha_requestAppend {r : PeerRef} : Shp P (requestAppend r) fun _ => True := by
  unfold requestAppend
  refine sha_bind sha_getPeer fun p _ => ?_
  split
  · exact sha_pure trivial
  · exact sha_bind (by shapeerly) fun _ _ => sha_bind sha_createAppend fun q hq => sha_bind (sha_emit hq) fun _ _ => sha_pure trivial

theorem sha_commitNotify {i : Int} : Shp P (commitNotify i) fun _ => True := by
  unfold commitNotify
  sha using sha_requestAppend
theorem sha_commit {n : Nat} : Shp P (commit n) fun _ => True := by
  unfold commit
  sha using sha_peerIds, sha_commitNotify, sha_emit
theorem sha_requestAppendTo {i : Int} : Shp P (requestAppendTo i) fun _ => True := by
  unfold requestAppendTo
  sha using sha_requestAppend
theorem sha_requestAppendAll : Shp P requestAppendAll fun _ => True := by
  unfold requestAppendAll
  sha using sha_commit, sha_peerIds, sha_requestAppendTo

/-! ## Elections -/

theorem sha_joinNone : Shp P (modify fun s => { s with srvToJoin := none } : R PUnit) fun _ => True :=
  sha_modify fun s hs => ⟨⟨hs.1, fun p hp => (by cases hp), hs.3, hs.4, hs.5, hs.6, hs.7⟩, rfl⟩
theorem sha_leaderPeer {i : Int} : Shp P (leaderPeer i) fun _ => True := by
  unfold leaderPeer
  exact sha_bind sha_get fun _ _ => sha_bind (sha_modPeer fun _ hp => ⟨hp.1, fun _ h => (by cases h)⟩) fun _ _ => sha_enableHb
theorem sha_initialConf : Shp P initialConf fun _ => True := by
  unfold initialConf
  refine sha_bind sha_get fun s _ => ?_
  split
  · refine sha_bind (sha_modify fun s hs => ⟨⟨hs.1, hs.2, hs.3, hs.4, hs.5, hs.6, hs.7⟩, rfl⟩) fun _ _ =>
      sha_bind sha_get fun s hs => sha_bind (sha_logAppend hs.config) fun _ _ => ?_
    shaplainly
  · exact sha_pure trivial
theorem sha_becomeLeader : Shp P becomeLeader fun _ => True := by
  unfold becomeLeader
  sha using sha_stopTimer, sha_peerIds, sha_leaderPeer, sha_initialConf, sha_requestAppendAll, sha_emit, sha_joinNone
theorem sha_askVote {ty : MsgType} {i : Int} : Shp P (askVote ty i) fun _ => True := by
  unfold askVote
  sha using sha_termForLog, sha_emit
  exact Req.shaped_bare rfl rfl rfl
theorem sha_voteSelf : Shp P voteSelf fun _ => True := by
  unfold voteSelf
  sha using sha_saveState
theorem sha_askForVotes : Shp P askForVotes fun _ => True := by
  unfold askForVotes
  sha using sha_becomeLeader, sha_peerIds, sha_askVote
theorem sha_startTerm : Shp P startTerm fun _ => True := by
  unfold startTerm
  sha using sha_saveState
theorem sha_becomeCandidate : Shp P becomeCandidate fun _ => True := by
  unfold becomeCandidate requestVote rearm
  sha using sha_startTerm, sha_voteSelf, sha_askForVotes, sha_restart
theorem sha_requestPrevote : Shp P requestPrevote fun _ => True := by
  unfold requestPrevote
  refine sha_bind sha_get fun s _ => ?_
  split
  · exact sha_becomeCandidate
  · exact sha_bind (by shaplainly) fun _ _ => sha_bind sha_peerIds fun ids h => sha_forEach fun i hi => sha_askVote
theorem sha_leaveConfig : Shp P leaveConfig fun _ => True := by
  unfold leaveConfig
  refine sha_bind sha_get fun s _ => ?_
  split
  · refine sha_bind (sha_modify fun s hs => ⟨⟨hs.1, hs.2, hs.3, fun x hx => ?_, hs.5, hs.6, hs.7⟩, rfl⟩) fun _ _ =>
      sha_bind sha_get fun s hs => sha_emit hs.config
    exact hs.config x (List.mem_of_mem_eraseP hx)
  · exact sha_pure trivial
theorem sha_electionTimeout : Shp P handleElectionTimeout fun _ => True := by
  unfold handleElectionTimeout
  sha using sha_leaveConfig, sha_die, sha_restart, sha_requestPrevote, sha_becomeCandidate
theorem sha_hbTimeout {r : PeerRef} : Shp P (handleHbTimeout r) fun _ => True := by
  unfold handleHbTimeout
  refine sha_bind (by shapeerly) fun _ _ => sha_bind sha_get fun s _ => ?_
  split
  · refine sha_bind sha_requestAppend fun _ _ => sha_modPeer fun p hp => ?_
    split
    · exact ⟨hp.1, hp.2⟩
    · exact hp
  · exact sha_pure trivial

/-! ## Requests -/

theorem sha_skipSame : ∀ {i : Nat} {es : List Entry}, (∀ e ∈ es, e.Shaped P) → Shp P (skipSame i es) fun q => ∀ e ∈ q.2, e.Shaped P
  | _, [], _ => sha_pure fun _ h => (by cases h)
  | i, e :: es, h => by
    unfold skipSame
    refine sha_bind sha_get fun s _ => ?_
    split
    · refine sha_bind sha_termAt fun t _ => ?_
      split
      · exact sha_skipSame fun a ha => h a (List.mem_cons_of_mem _ ha)
      · exact sha_pure h
    · exact sha_pure h
theorem sha_rollbackOld {i : Nat} : Shp P (rollbackOld i) fun _ => True := by
  unfold rollbackOld
  sha using sha_entryAt, sha_emit
theorem sha_noteNew {i : Nat} {e : Entry} : Shp P (noteNew i e) fun _ => True := by
  unfold noteNew
  sha using sha_emit
theorem sha_overwriteOld : ∀ {i : Nat} {es : List Entry}, (∀ e ∈ es, e.Shaped P) → Shp P (overwriteOld i es) fun q => ∀ e ∈ q, e.Shaped P
  | _, [], _ => sha_pure fun _ h => (by cases h)
  | i, e :: es, h => by
    unfold overwriteOld
    refine sha_bind sha_get fun s _ => ?_
    split
    · exact sha_bind sha_rollbackOld fun _ _ => sha_bind (sha_logWriteAt (h e (List.mem_cons_self ..))) fun _ _ =>
        sha_bind sha_noteNew fun _ _ => sha_overwriteOld fun a ha => h a (List.mem_cons_of_mem _ ha)
    · exact sha_pure h
theorem sha_appendNew : ∀ {es : List Entry}, (∀ e ∈ es, e.Shaped P) → Shp P (appendNew es) fun _ => True
  | [], _ => sha_pure trivial
  | e :: es, h => by
    unfold appendNew
    exact sha_bind sha_get fun s _ => sha_bind (sha_logAppend (h e (List.mem_cons_self ..))) fun _ _ =>
      sha_bind sha_noteNew fun _ _ => sha_appendNew fun a ha => h a (List.mem_cons_of_mem _ ha)
theorem sha_storeEntries {r : Req} (h : ∀ e ∈ r.entries, e.Shaped P) : Shp P (storeEntries r) fun _ => True := by
  unfold storeEntries
  exact sha_bind (sha_skipSame h) fun q hq => sha_bind (sha_overwriteOld hq) fun es hes => sha_appendNew hes
theorem sha_hearLeader {r : Req} : Shp P (hearLeader r) fun _ => True := by
  unfold hearLeader
  sha using sha_becomeFollower, sha_die, sha_restart
theorem sha_logOkay {r : Req} : Shp P (logOkay r) fun _ => True := by
  unfold logOkay
  sha using sha_termForLog
theorem sha_appendEntries {r : Req} (h : ∀ e ∈ r.entries, e.Shaped P) : Shp P (handleAppendEntries r) fun _ => True := by
  have := sha_storeEntries h
  unfold handleAppendEntries
  sha using sha_hearLeader, sha_logOkay, sha_commit
theorem sha_voteReq {r : Req} : Shp P (handleVoteReq r) fun _ => True := by
  unfold handleVoteReq
  sha using sha_saveState
theorem sha_prevoteReq {r : Req} : Shp P (handlePrevoteReq r) fun _ => True := by
  unfold handlePrevoteReq
  sha using sha_saveState
theorem sha_isLeader : Shp P isLeader fun _ => True := by
  unfold isLeader
  sha using sha_saveState
theorem sha_appendClient : ∀ {es : List Entry}, (∀ e ∈ es, e.Shaped P) → Shp P (appendClient es) fun _ => True
  | [], _ => sha_pure trivial
  | e :: es, h => by
    unfold appendClient
    refine sha_bind sha_get fun s _ => sha_bind (sha_logAppend ?_) fun _ _ =>
      sha_bind (sha_emit trivial) fun _ _ => sha_appendClient fun a ha => h a (List.mem_cons_of_mem _ ha)
    exact h e (List.mem_cons_self ..)
theorem sha_cliReq {r : Req} (h : ∀ e ∈ r.entries, e.Shaped P) : Shp P (handleCliReq r) fun _ => True := by
  have := sha_appendClient h
  unfold handleCliReq
  sha using sha_isLeader, sha_requestAppendAll
theorem sha_addPeer {c : SrvCfg} (h : P c) : Shp P (addPeer c) fun _ => True := by
  unfold addPeer
  refine sha_bind (sha_modify fun s hs => ?_) fun _ _ => sha_bind sha_get fun s _ => ?_
  · split
    · exact ⟨hs, rfl⟩
    · refine ⟨⟨fun p hp => ?_, hs.2, hs.3, hs.4, hs.5, hs.6, hs.7⟩, rfl⟩
      rcases List.mem_append.1 hp with hp | hp
      · exact hs.peers p hp
      · rw [List.mem_singleton.1 hp]
        exact ⟨h, fun _ h => (by cases h)⟩
  split
  · refine sha_bind sha_enableHb fun _ _ => ?_
    split
    · split
      · exact sha_bind (by shapeerly) fun _ _ =>
          sha_modify fun s hs => ⟨⟨hs.1, fun p hp => (by cases hp), hs.3, hs.4, hs.5, hs.6, hs.7⟩, rfl⟩
      · exact sha_pure trivial
    · exact sha_pure trivial
  · exact sha_pure trivial
theorem sha_removePeer {c : Config} (h : c.Shaped P) {i : Int} : Shp P (removePeer c i) fun _ => True := by
  unfold removePeer
  refine sha_bind sha_get fun s _ => ?_
  split
  · exact sha_bind (sha_emit h) fun _ _ => sha_die
  · exact sha_modify fun s hs => ⟨⟨fun p hp => hs.peers p (List.mem_filter.1 hp).1, hs.2, hs.3, hs.4, hs.5, hs.6, hs.7⟩, rfl⟩
theorem sha_reconfigure {c : Config} (h : c.Shaped P) : Shp P (reconfigure c) fun _ => True := by
  unfold reconfigure
  exact sha_bind sha_get fun s _ => sha_bind (sha_forEach fun x hx => sha_addPeer (h x (List.mem_filter.1 hx).1)) fun _ _ =>
    sha_bind (sha_forEach fun _ _ => sha_removePeer h) fun _ _ =>
    sha_modify fun s hs => ⟨⟨hs.1, hs.2, hs.3, h, hs.5, hs.6, hs.7⟩, rfl⟩
theorem sha_installSnapshot {q : Snap} (h : q.Shaped P) : Shp P (installSnapshot q) fun _ => True := by
  unfold installSnapshot
  refine sha_bind sha_get fun s _ => ?_
  split
  · exact sha_die
  refine sha_bind sha_logCompact fun ok _ => ?_
  split
  · refine sha_bind sha_stopTimer fun _ _ => sha_bind (sha_emit h) fun _ _ => ?_
    split
    · exact sha_die
    refine sha_bind (sha_modify fun s hs => ⟨⟨hs.1, hs.2, hs.3, hs.4, hs.5, hs.6, fun x hx => ?_⟩, rfl⟩) fun _ _ =>
      sha_bind (sha_reconfigure h) fun _ _ => sha_bind sha_get fun s hs => sha_bind (sha_emit hs.config) fun _ _ =>
      sha_bind (by shaplainly) fun _ _ => sha_bind sha_saveState fun _ _ =>
      sha_bind (sha_modify fun s hs => ⟨⟨hs.1, hs.2, hs.3, hs.4, hs.5, fun x hx => ?_, hs.7⟩, rfl⟩) fun _ _ =>
      sha_bind sha_restart fun _ _ => sha_pure trivial
    · cases hx; exact h
    · cases hx; exact hs.config
  · exact sha_pure trivial
theorem sha_snapshotSync {q : SnpSync} (h : q.snap.Shaped P) : Shp P (handleSnapshotSync q) fun _ => True := by
  have := sha_installSnapshot h
  unfold handleSnapshotSync
  sha using sha_emit, sha_die
theorem sha_hearSnapshotLeader {r : Req} : Shp P (hearSnapshotLeader r) fun _ => True := by
  unfold hearSnapshotLeader
  sha using sha_becomeFollower, sha_die, sha_restart
theorem sha_installReq {r : Req} (h : r.Shaped P) : Shp P (handleInstallSnapshot r) fun _ => True := by
  unfold handleInstallSnapshot
  refine sha_bind sha_hearSnapshotLeader fun _ _ => sha_bind sha_get fun s _ => ?_
  split
  · exact sha_pure trivial
  split
  · rename_i q _ hq
    split
    · exact sha_pure trivial
    · refine sha_bind (sha_snapshotSync (h.sync _ hq).1) fun _ _ => ?_
      split <;> exact sha_pure trivial
  · exact sha_pure trivial
theorem sha_rmSrv {r : Req} : Shp P (handleRmSrv r) fun _ => True := by
  unfold handleRmSrv
  refine sha_bind sha_get fun s hs => ?_
  split
  · split
    · exact sha_pure trivial
    · exact sha_bind (sha_emit (Req.shaped_bare rfl rfl rfl)) fun _ _ => sha_pure trivial
  · exact sha_pure trivial
theorem sha_inviteSrv : Shp P inviteSrv fun _ => True := by
  unfold inviteSrv
  refine sha_bind sha_get fun s hs => sha_bind sha_getPeer fun p hp =>
    sha_emit (Req.shaped_simple (fun e he => ?_) (fun h => (by cases h)) rfl rfl)
  rw [List.mem_singleton.1 he]
  exact hs.config
theorem sha_addSrv {r : Req} (h : r.Shaped P) : Shp P (handleAddSrv r) fun _ => True := by
  unfold handleAddSrv
  refine sha_bind sha_get fun s hs => ?_
  split
  · rename_i t c he
    have hc : P c := (h.entries ⟨t, .srv c⟩ (by rw [he]; exact List.mem_singleton.2 rfl)).srv
    split
    · exact sha_pure trivial
    · refine sha_bind (sha_modify fun s hs => ⟨⟨hs.1, hs.2, fun x hx => ?_, hs.4, hs.5, hs.6, hs.7⟩, rfl⟩) fun _ _ =>
        sha_bind (sha_modify fun s hs => ⟨⟨hs.1, fun x hx => ?_, hs.3, hs.4, hs.5, hs.6, hs.7⟩, rfl⟩) fun _ _ =>
        sha_bind sha_inviteSrv fun _ _ => sha_pure trivial
      · cases hx; exact hc
      · cases hx; exact ⟨hc, fun _ h => (by cases h)⟩
  · exact sha_pure trivial
theorem sha_logSync {r : Req} (h : r.Shaped P) : Shp P (handleLogSync r) fun _ => True := by
  have := sha_logApplyPack (i := r.lastIdx + 1) h.pack
  unfold handleLogSync
  sha using sha_commit
theorem sha_join {r : Req} (h : r.Shaped P) : Shp P (handleJoin r) fun _ => True := by
  unfold handleJoin
  refine sha_bind sha_get fun s hs => ?_
  split
  · rename_i t c he
    have hc : c.Shaped P := (h.entries ⟨t, .conf c⟩ (by rw [he]; exact List.mem_singleton.2 rfl)).conf
    have := sha_reconfigure hc
    split
    · exact sha_pure trivial
    · sha using sha_saveState
      all_goals shaplainly
  · exact sha_pure trivial
theorem sha_leave {r : Req} : Shp P (handleLeave r) fun _ => True := by
  unfold handleLeave
  sha using sha_saveState
theorem sha_extended {r : Req} (h : r.Shaped P) : Shp P (handleExtended r) fun _ => True := by
  unfold handleExtended
  split
  · exact sha_addSrv h
  · exact sha_rmSrv
  · exact sha_logSync h
  · exact sha_join h
  · exact sha_leave
  · exact sha_installReq h
  · exact sha_prevoteReq
  · exact sha_die
theorem sha_hearTerm {r : Req} : Shp P (hearTerm r) fun _ => True := by
  unfold hearTerm
  sha using sha_updateTerm
theorem sha_processReq {r : Req} (h : r.Shaped P) : Shp P (processReq r) fun _ => True := by
  have h3 := sha_extended h
  have hd : Shp P (dispatch r) fun _ => True := by
    unfold dispatch
    split
    · rename_i ht
      exact sha_appendEntries fun e he => by have := h.entries e he; rwa [ht] at this
    · exact sha_voteReq
    · rename_i ht
      exact sha_cliReq fun e he => by have := h.entries e he; rwa [ht] at this
    · exact h3
  unfold processReq
  sha using sha_hearTerm
/-! ## Responses -/

theorem sha_acceptedResp {r : Resp} : Shp P (acceptedResp r) fun _ => True := by
  unfold acceptedResp
  sha using sha_commit, sha_getPeer
theorem sha_refusedResp {r : Resp} : Shp P (refusedResp r) fun _ => True := by
  refine sha_bind (sha_modPeer fun p hp => ?_) fun _ _ => sha_pure trivial
  split
  · exact ⟨hp.1, hp.2⟩
  split
  · exact ⟨hp.1, hp.2⟩
  · exact hp
theorem sha_appendResp {r : Resp} : Shp P (handleAppendResp r) fun _ => True := by
  unfold handleAppendResp
  sha using sha_acceptedResp, sha_refusedResp, sha_requestAppendTo
theorem sha_acceptedSnpResp {r : Resp} : Shp P (acceptedSnpResp r) fun _ => True := by
  unfold acceptedSnpResp
  refine sha_bind sha_getPeer fun p hp => ?_
  split
  · exact sha_pure trivial
  · rename_i snp off hc
    split
    · exact sha_bind (sha_modPeer fun p hp => ⟨hp.1, fun _ h => (by cases h)⟩) fun _ _ =>
        sha_bind sha_get fun _ _ => sha_pure trivial
    · exact sha_bind (sha_modPeer fun q hq => ⟨hq.1, fun x hx => by cases hx; exact hp.ctx (snp, off) hc⟩) fun _ _ => sha_pure trivial
theorem sha_snpResp {r : Resp} : Shp P (handleSnpResp r) fun _ => True := by
  unfold handleSnpResp
  refine sha_bind sha_get fun s _ => sha_ite (sha_pure trivial) ?_
  have : ∀ b : Bool, Shp P (do
      let s ← get
      if s.role = .leader ∧ b = true then requestAppendTo r.src else pure ()) fun _ => True := fun b =>
    sha_bind sha_get fun _ _ => sha_ite sha_requestAppendTo (sha_pure trivial)
  exact sha_ite (sha_bind sha_acceptedSnpResp fun b _ => this b) (sha_bind (sha_pure (V := fun _ => True) trivial) fun b _ => this b)
theorem sha_votingResp {r : Resp} : Shp P (handleVotingResp r) fun _ => True := by
  unfold handleVotingResp
  sha using sha_becomeLeader
theorem sha_peerResp {r : Resp} : Shp P (handlePeerResp r) fun _ => True := by
  unfold handlePeerResp dispatchResp
  sha using sha_updateTerm, sha_votingResp, sha_appendResp, sha_snpResp, sha_die
theorem sha_prevoteResp {r : Resp} : Shp P (handlePrevoteResp r) fun _ => True := by
  unfold handlePrevoteResp
  sha using sha_becomeCandidate, sha_restart
theorem sha_addToConfig : Shp P addToConfig fun _ => True := by
  unfold addToConfig
  refine sha_bind sha_get fun s hs => ?_
  split
  · exact sha_throw
  · rename_i c hc
    refine sha_bind (sha_logAppend fun x hx => ?_) fun _ _ => sha_bind (by shaplainly) fun _ _ => sha_requestAppendAll
    rcases List.mem_append.1 hx with hx | hx
    · exact hs.config x hx
    · rw [List.mem_singleton.1 hx]; exact hs.adding c hc
theorem sha_syncLog {n : Nat} : Shp P (syncLogToNewSrv n) fun _ => True := by
  unfold syncLogToNewSrv
  refine sha_bind sha_get fun s hs => ?_
  split
  · exact sha_addToConfig
  split
  · exact sha_bind sha_createSync fun q hq => sha_emit hq
  split
  · exact sha_throw
  split
  · exact sha_throw
  · rename_i hpk
    refine sha_bind sha_getPeer fun p hp => sha_emit ⟨fun e he => ?_, fun e he => ?_, .inr ⟨_, List.mem_singleton.2 rfl, rfl⟩,
      fun q hq => (by cases hq), fun ⟨e, he, hv⟩ => (by rw [List.mem_singleton.1 he] at hv; cases hv)⟩
    · rw [List.mem_singleton.1 he]; exact trivial
    · exact hs.log e (packOf_mem hpk he)
theorem sha_rmFromCluster {i : Int} : Shp P (rmSrvFromCluster i) fun _ => True := by
  unfold rmSrvFromCluster
  refine sha_bind sha_get fun s hs => sha_bind (by shaplainly) fun _ _ => sha_bind (sha_logAppend fun x hx => ?_) fun _ _ =>
    sha_requestAppendAll
  exact hs.config x (List.mem_filter.1 hx).1
theorem sha_extSnpResp {r : Resp} : Shp P (handleExtSnpResp r) fun _ => True := by
  unfold handleExtSnpResp
  refine sha_bind sha_get fun s hs => ?_
  split
  · exact sha_pure trivial
  · rename_i p hj
    split
    · exact sha_pure trivial
    split
    · exact sha_die
    · rename_i snp off hc
      have hp := hs.joining p hj
      by_cases hn : snp.size ≤ r.nextIdx
      · simp only [if_pos hn]
        exact sha_bind (sha_modPeer fun p hp => ⟨hp.1, fun _ h => (by cases h)⟩) fun _ _ => sha_bind sha_getPeer fun q _ => sha_syncLog
      · simp only [if_neg hn]
        exact sha_bind (sha_modPeer fun q hq => ⟨hq.1, fun x hx => by cases hx; exact hp.ctx (snp, off) hc⟩) fun _ _ =>
          sha_bind sha_getPeer fun q _ => sha_syncLog
theorem sha_resumeHb {r : PeerRef} {q : Params} : Shp P (modPeer r (resumeHb q)) fun _ => True := by
  refine sha_modPeer fun p hp => ?_
  unfold resumeHb
  first | exact ⟨hp.1, hp.2⟩ | (split <;> exact ⟨hp.1, hp.2⟩)
theorem sha_extResp {r : Resp} : Shp P (handleExtResp r) fun _ => True := by
  unfold handleExtResp
  sha using sha_syncLog, sha_rmFromCluster, sha_extSnpResp, sha_prevoteResp, sha_die, sha_resumeHb
theorem sha_forceRemove {i : Int} : Shp P (forceRemove i) fun _ => True := by
  unfold forceRemove
  refine sha_bind (sha_modify fun s hs => ⟨⟨fun p hp => ?_, hs.2, hs.3, hs.4, hs.5, hs.6, hs.7⟩, rfl⟩) fun _ _ => sha_rmFromCluster
  have hp : p ∈ if s.peers.length = 1 then s.peers.filter fun p => p.id != i else s.peers := hp
  split at hp
  · exact hs.peers p (List.mem_filter.1 hp).1
  · exact hs.peers p hp
theorem sha_extErr {r : Req} : Shp P (handleExtErr r) fun _ => True := by
  unfold handleExtErr
  sha using sha_forceRemove
  all_goals first
    | shapeerly
    | exact sha_modify fun s hs => ⟨⟨hs.1, fun p hp => (by cases hp), hs.3, hs.4, hs.5, hs.6, hs.7⟩, rfl⟩
theorem sha_rpcResult {q : PeerRef} {ty : MsgType} {ok : Bool} : Shp P (rpcResult q ty ok) fun _ => True := by
  unfold rpcResult
  refine sha_bind sha_get fun s _ => sha_bind (sha_modPeer fun p hp => ?_) fun _ _ => sha_modPeer fun p hp => ?_
  · split
    · exact ⟨hp.1, hp.2⟩
    · exact hp
  · split
    · exact ⟨hp.1, hp.2⟩
    · exact ⟨hp.1, hp.2⟩

/-! ## The commit thread -/

theorem sha_commitConf {c : Config} (h : c.Shaped P) : Shp P (commitConf c) fun _ => True := by
  have := sha_reconfigure h
  unfold commitConf
  refine sha_bind (sha_emit h) fun _ _ => ?_
  sha using
theorem sha_findConf {i : Nat} : ∀ {n : Nat} {c : Config}, c.Shaped P → Shp P (findConf i n c) (Config.Shaped P)
  | 0, _, _ => sha_throw
  | n + 1, c, h => by
    unfold findConf
    refine sha_bind sha_get fun s _ => ?_
    split
    · refine sha_bind sha_entryAt fun e he => ?_
      unfold Entry.Shaped at he
      split
      · rename_i c' hv
        rw [hv] at he
        exact sha_findConf he
      · exact sha_throw
    · exact sha_pure h
theorem sha_confForSnap {i : Nat} : Shp P (confForSnap i) (Config.Shaped P) := by
  unfold confForSnap
  refine sha_bind sha_get fun s hs => sha_bind (sha_findConf hs.config) fun c hc => ?_
  split
  · split
    · exact sha_die
    · exact sha_pure (hs.last _ (by assumption))
  split
  · exact sha_die
  · exact sha_pure hc
theorem sha_startSnapshot {i : Nat} : Shp P (startSnapshot i) fun _ => True := by
  unfold startSnapshot
  exact sha_bind sha_confForSnap fun c hc => sha_bind sha_termAt fun t _ => sha_emit hc
theorem sha_snapshotAndCompact {i : Nat} : Shp P (snapshotAndCompact i) fun _ => True := by
  unfold snapshotAndCompact
  sha using sha_startSnapshot
theorem sha_keepSnap {q : Snap} (h : q.Shaped P) : Shp P (keepSnap q) fun _ => True := by
  unfold keepSnap
  refine sha_bind sha_get fun s _ => sha_bind
    (sha_modify fun s hs => ⟨⟨hs.1, hs.2, hs.3, hs.4, hs.5, hs.6, fun x hx => ?_⟩, rfl⟩) fun _ _ => sha_emit h
  cases hx; exact h
theorem sha_onSnapshotCompleted {q : Snap} {ok : Bool} (h : q.Shaped P) : Shp P (onSnapshotCompleted q ok) fun _ => True := by
  have : Shp P (modify fun s => { s with lastSnap := some q } : R PUnit) fun _ => True :=
    sha_modify fun s hs => ⟨⟨hs.1, hs.2, hs.3, hs.4, hs.5, fun x hx => by cases hx; exact h, hs.7⟩, rfl⟩
  unfold onSnapshotCompleted
  sha using sha_logCompact
theorem sha_applyEntry {i : Nat} {e : Entry} (h : e.Shaped P) : Shp P (applyEntry i e) fun _ => True := by
  unfold applyEntry
  unfold Entry.Shaped at h
  split
  · exact sha_emit trivial
  · rename_i c hv
    rw [hv] at h
    exact sha_commitConf h
  · exact sha_pure trivial
theorem sha_applyOne : Shp P applyOne fun _ => True := by
  unfold applyOne
  refine sha_bind sha_get fun s _ => ?_
  split
  · exact sha_bind (by shaplainly) fun _ _ => sha_bind sha_entryToApply fun e he => sha_bind (sha_applyEntry he) fun _ _ =>
      sha_snapshotAndCompact
  · exact sha_pure trivial
theorem sha_replicateLog {d : Nat} : Shp P (replicateLog d) fun _ => True := by
  unfold replicateLog
  refine sha_bind sha_isLeader fun b _ => ?_
  split
  · exact sha_bind sha_get fun s _ => sha_bind (sha_logAppend (by exact trivial)) fun _ _ =>
      sha_bind sha_requestAppendAll fun _ _ => sha_pure trivial
  · exact sha_pure trivial

/-- All inputs. -/
theorem sha_run {x : Input} (h : x.Shaped P) : Shp P x.run fun _ => True := by
  cases x with
  | req r => exact sha_bind (sha_processReq h) fun q _ => sha_emit trivial
  | peerResp ty r => exact sha_bind sha_rpcResult fun _ _ => sha_peerResp
  | extResp p ty r => exact sha_bind sha_rpcResult fun _ _ => sha_extResp
  | peerErr r => exact sha_rpcResult
  | extErr p r => exact sha_bind sha_rpcResult fun _ _ => sha_extErr
  | retry r =>
    show Shp P (retryReq r) _
    unfold retryReq
    split
    · exact sha_emit h
    · exact sha_pure trivial
  | electionTimeout => exact sha_electionTimeout
  | hbTimeout i => exact sha_hbTimeout
  | apply => exact sha_applyOne
  | snapDone q ok =>
    show Shp P (if ok then _ else _) _
    split
    · exact sha_bind (sha_keepSnap h) fun _ _ => sha_onSnapshotCompleted h
    · exact sha_onSnapshotCompleted h
  | replicate d => exact sha_bind sha_replicateLog fun _ _ => sha_pure trivial
  | tick n => exact sha_set fun _ => ⟨rfl, rfl, rfl, rfl, rfl, rfl, rfl, rfl⟩

/-! ## Histories -/

theorem Disk.Shaped.after {d : Disk} (h : d.Shaped P) {e : Eff} (he : e.Shaped P) : (d.after e).Shaped P := by
  cases e with
  | saveConfig c => exact ⟨he, h.2, h.3⟩
  | append e =>
    refine ⟨h.1, fun a ha => ?_, h.3⟩
    rcases List.mem_append.1 ha with ha | ha
    · exact h.log a ha
    · rw [List.mem_singleton.1 ha]; exact he
  | writeAt i e =>
    refine ⟨h.1, fun a ha => ?_, h.3⟩
    rcases List.mem_append.1 ha with ha | ha
    · exact h.log a (List.mem_of_mem_take ha)
    · rw [List.mem_singleton.1 ha]; exact he
  | applyPack i es =>
    refine ⟨h.1, fun a ha => ?_, h.3⟩
    rcases List.mem_append.1 ha with ha | ha
    · exact h.log a (List.mem_of_mem_take ha)
    · exact he a ha
  | compact i => exact ⟨h.1, fun a ha => h.log a (List.mem_of_mem_drop ha), h.3⟩
  | applySnp q => exact ⟨h.1, h.2, fun x hx => by cases hx; exact he⟩
  | madeSnp q => exact ⟨h.1, h.2, fun x hx => by cases hx; exact he⟩
  | _ => exact ⟨h.1, h.2, h.3⟩

theorem Disk.Shaped.afterAll {es : List Eff} : ∀ {d : Disk}, d.Shaped P → (∀ e ∈ es, e.Shaped P) → (d.afterAll es).Shaped P := by
  induction es with
  | nil => exact fun h _ => h
  | cons e es ih => exact fun h he => ih (h.after (he e (List.mem_cons_self ..))) fun a ha => he a (List.mem_cons_of_mem _ ha)

theorem bootPeers_shaped {id : Int} {pr : Params} : ∀ {cs : List SrvCfg} {ps : List Peer}, (∀ c ∈ cs, P c) → (∀ p ∈ ps, p.Shaped P) →
    ∀ p ∈ cs.foldl (bootPeer id pr) ps, p.Shaped P
  | [], _, _, h => h
  | c :: cs, ps, hc, h => by
    refine bootPeers_shaped (cs := cs) (ps := bootPeer id pr ps c) (fun x hx => hc x (List.mem_cons_of_mem _ hx)) fun p hp => ?_
    unfold bootPeer at hp
    split at hp
    · exact h p hp
    · rcases List.mem_append.1 hp with hp | hp
      · exact h p hp
      · rw [List.mem_singleton.1 hp]
        exact ⟨hc c (List.mem_cons_self ..), fun _ h => (by cases h)⟩

theorem Disk.Shaped.boot {d : Disk} (h : d.Shaped P) (id : Int) (pr : Params) (env : Env) : (boot id pr env d).Shaped P :=
  ⟨bootPeers_shaped h.config fun _ h => (by cases h), fun _ h => (by cases h), fun _ h => (by cases h), h.config, h.log, h.snap, h.snap⟩

/-- A node all of whose descriptions satisfy `P`. -/
structure Node.Shaped (P : SrvCfg → Prop) (n : Node) : Prop where
  disk : n.disk.Shaped P
  up : ∀ s, n.up = some s → s.Shaped P

theorem Node.Shaped.step {c : Setup} {n1 n2 : Node} {x : Option Input} {es : List Eff} (h : n1.Shaped P) (hs : n1.Step c x es n2)
    (hx : ∀ i, x = some i → i.Shaped P) : n2.Shaped P ∧ ∀ e ∈ es, e.Shaped P := by
  have key : ∀ (s : Srv) (i : Input), s.Shaped P → i.Shaped P → (i.run { s with trace := [] }).2.Shaped P ∧
      ∀ e ∈ (i.run { s with trace := [] }).2.trace, e.Shaped P := by
    intro s i h1 h2
    obtain ⟨⟨a1, es, a2, a3⟩, _⟩ := sha_run h2 { s with trace := [] } ⟨h1.1, h1.2, h1.3, h1.4, h1.5, h1.6, h1.7⟩
    refine ⟨a1, ?_⟩
    rw [a2]; exact a3
  cases hs with
  | run hr =>
    have := key _ _ (h.up _ rfl) (hx _ rfl)
    rw [hr] at this
    exact ⟨⟨h.disk.afterAll this.2, fun s hs => by cases hs; exact this.1⟩, this.2⟩
  | survive hr =>
    have := key _ _ (h.up _ rfl) (hx _ rfl)
    rw [hr] at this
    exact ⟨⟨h.disk.afterAll this.2, fun s hs => by cases hs; exact this.1⟩, this.2⟩
  | crash hp =>
    have := (key _ _ (h.up _ rfl) (hx _ rfl)).2
    have h2 : ∀ e ∈ es, e.Shaped P := fun e he => this e (hp.subset he)
    exact ⟨⟨h.disk.afterAll h2, fun s hs => (by cases hs)⟩, h2⟩
  | boot => exact ⟨⟨h.disk, fun s hs => by cases hs; exact h.disk.boot ..⟩, fun _ h => (by cases h)⟩

theorem Hist.shaped {c : Setup} {n n' : Node} {xs : List Input} {fx : List Eff} (h : Hist c n xs fx n') (hn : n.Shaped P)
    (hx : ∀ x ∈ xs, x.Shaped P) : n'.Shaped P ∧ ∀ e ∈ fx, e.Shaped P := by
  induction h with
  | nil => exact ⟨hn, fun _ h => (by cases h)⟩
  | step h1 hs ih =>
    obtain ⟨a1, a2⟩ := ih fun x hm => hx x (List.mem_append_left _ hm)
    obtain ⟨b1, b2⟩ := a1.step hs fun i hi => hx i (List.mem_append_right _ (by rw [hi]; simp))
    exact ⟨b1, fun e he => (List.mem_append.1 he).elim (a2 e) (b2 e)⟩

end Cs.Raft
