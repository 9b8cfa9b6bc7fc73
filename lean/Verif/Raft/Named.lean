import Verif.Raft.Pres
import Verif.Raft.Spec

/-!
# Descriptions of servers

A server gets descriptions of other servers, with their addresses, from its disk and from requests, and hands them on. `Named P`:
every description satisfies `P`. Handlers make no descriptions of their own.
-/

namespace Cs.Raft
open Cs

variable (P : SrvCfg → Prop)

def Config.Named (c : Config) : Prop := ∀ x ∈ c.servers, P x
def Snap.Named (s : Snap) : Prop := s.config.Named P
def Val.Named : Val → Prop
  | .conf c => c.Named P
  | .srv c => P c
  | _ => True
def Entry.Named (e : Entry) : Prop := e.val.Named P
/-- A server with a description that satisfies `P`. -/
def Dest (i : Int) : Prop := ∃ c, P c ∧ c.id = i

structure Req.Named (r : Req) : Prop where
  entries : ∀ e ∈ r.entries, e.Named P
  pack : ∀ e ∈ r.pack, e.Named P
  sync : ∀ q, r.sync = some q → q.snap.Named P

structure Peer.Named (p : Peer) : Prop where
  cfg : P p.cfg
  ctx : ∀ q, p.snpCtx = some q → q.1.Named P

/-- All descriptions a server has. -/
structure Srv.Named (s : Srv) : Prop where
  peers : ∀ p ∈ s.peers, p.Named P
  joining : ∀ p, s.srvToJoin = some p → p.Named P
  adding : ∀ c, s.confToAdd = some c → P c
  config : s.config.Named P
  log : ∀ e ∈ s.log.ents, e.Named P
  last : ∀ q, s.lastSnap = some q → q.Named P
  sm : ∀ q, s.smSnap = some q → q.Named P

/-- All descriptions that leave a server. -/
def Eff.Named : Eff → Prop
  | .send r => Dest P r.dst ∧ r.Named P
  | .saveConfig c => c.Named P
  | .append e => e.Named P
  | .writeAt _ e => e.Named P
  | .applyPack _ es => ∀ e ∈ es, e.Named P
  | .applySnp q => q.Named P
  | .createSnp q => q.Named P
  | .madeSnp q => q.Named P
  | _ => True

/-- All descriptions that reach a server. -/
def Input.Named : Input → Prop
  | .req r => r.Named P
  | .retry r => Dest P r.dst ∧ r.Named P
  | .snapDone q _ => q.Named P
  | _ => True

structure Disk.Named (d : Disk) : Prop where
  config : d.config.Named P
  log : ∀ e ∈ d.log.ents, e.Named P
  snap : ∀ q, d.snap = some q → q.Named P

variable {P}

/-- Handlers that hand on only what they get; the result satisfies `V`. -/
def Nam {α : Type} (P : SrvCfg → Prop) (m : R α) (V : α → Prop) : Prop := ∀ s : Srv, s.Named P →
  ((m s).2.Named P ∧ ∃ es, (m s).2.trace = s.trace ++ es ∧ ∀ e ∈ es, e.Named P) ∧ ∀ a, (m s).1 = .ok a → V a

variable {α β : Type}

theorem nam_bind {m : R α} {k : α → R β} {V : α → Prop} {W : β → Prop} (h1 : Nam P m V) (h2 : ∀ a, V a → Nam P (k a) W) :
    Nam P (m >>= k) W := by
  intro s hs
  obtain ⟨⟨a1, es, a2, a3⟩, a4⟩ := h1 s hs
  rw [run_bind]
  rcases hm : m s with ⟨e | a, s'⟩
  · rw [hm] at a1 a2
    exact ⟨⟨a1, es, a2, a3⟩, fun b hb => (by cases hb)⟩
  · rw [hm] at a1 a2 a4
    obtain ⟨⟨b1, fs, b2, b3⟩, b4⟩ := h2 a (a4 a rfl) s' a1
    have a2 : s'.trace = _ := a2
    exact ⟨⟨b1, es ++ fs, by rw [b2, a2, List.append_assoc], fun e he => (List.mem_append.1 he).elim (a3 e) (b3 e)⟩, b4⟩

theorem nam_pure {a : α} {V : α → Prop} (h : V a) : Nam P (pure a : R α) V := fun s hs =>
  ⟨⟨hs, [], (List.append_nil _).symm, fun _ h => (by cases h)⟩, fun b hb => by cases hb; exact h⟩
theorem nam_throw {e : Fault} {V : α → Prop} : Nam P (throw e : R α) V := fun s hs =>
  ⟨⟨hs, [], (List.append_nil _).symm, fun _ h => (by cases h)⟩, fun b hb => (by cases hb)⟩
theorem nam_get : Nam P (get : R Srv) (Srv.Named P) := fun s hs =>
  ⟨⟨hs, [], (List.append_nil _).symm, fun _ h => (by cases h)⟩, fun b hb => by cases hb; exact hs⟩
theorem nam_modify {f : Srv → Srv} (h : ∀ s, s.Named P → (f s).Named P ∧ (f s).trace = s.trace) :
    Nam P (modify f : R PUnit) fun _ => True := fun s hs =>
  ⟨⟨(h s hs).1, [], by rw [List.append_nil]; exact (h s hs).2, fun _ h => (by cases h)⟩, fun _ _ => trivial⟩
theorem nam_emit {e : Eff} (h : e.Named P) : Nam P (emit e) fun _ => True := fun s hs =>
  ⟨⟨⟨hs.1, hs.2, hs.3, hs.4, hs.5, hs.6, hs.7⟩, [e], rfl, fun a ha => by rw [List.mem_singleton.1 ha]; exact h⟩, fun _ _ => trivial⟩
theorem nam_weak {m : R α} {V W : α → Prop} (h : Nam P m V) (hv : ∀ a, V a → W a) : Nam P m W := fun s hs =>
  ⟨(h s hs).1, fun a ha => hv a ((h s hs).2 a ha)⟩
theorem nam_any {m : R α} {V : α → Prop} (h : Nam P m V) : Nam P m fun _ => True := nam_weak h fun _ _ => trivial
theorem nam_ite {c : Prop} [Decidable c] {a b : R α} {V : α → Prop} (h1 : Nam P a V) (h2 : Nam P b V) :
    Nam P (if c then a else b) V := by
  split
  · exact h1
  · exact h2
theorem nam_forEach {f : α → R Unit} : ∀ {as : List α}, (∀ a ∈ as, Nam P (f a) fun _ => True) →
    Nam P (forEach f as) fun _ => True
  | [], _ => nam_pure trivial
  | _ :: _, h => nam_bind (h _ (List.mem_cons_self ..)) fun _ _ => nam_forEach fun b hb => h b (List.mem_cons_of_mem _ hb)
theorem nam_catch {m k : R Unit} (h1 : Nam P m fun _ => True) (h2 : Nam P k fun _ => True) :
    Nam P (catchThrown m k) fun _ => True := by
  intro s hs
  obtain ⟨⟨a1, es, a2, a3⟩, a4⟩ := h1 s hs
  unfold catchThrown
  rcases hm : m s with ⟨e | a, s'⟩
  · rw [hm] at a1 a2
    cases e with
    | thrown =>
      obtain ⟨⟨b1, fs, b2, b3⟩, b4⟩ := h2 s' a1
      have a2 : s'.trace = _ := a2
      exact ⟨⟨b1, es ++ fs, by rw [b2, a2, List.append_assoc], fun e he => (List.mem_append.1 he).elim (a3 e) (b3 e)⟩, b4⟩
    | _ => exact ⟨⟨a1, es, a2, a3⟩, fun _ _ => trivial⟩
  · rw [hm] at a1 a2
    exact ⟨⟨a1, es, a2, a3⟩, fun _ _ => trivial⟩

/-- Fields without descriptions are changed. -/
theorem Srv.Named.of {s s' : Srv} (h : s.Named P) (h1 : s'.peers = s.peers) (h2 : s'.srvToJoin = s.srvToJoin)
    (h3 : s'.confToAdd = s.confToAdd) (h4 : s'.config = s.config) (h5 : s'.log = s.log) (h6 : s'.lastSnap = s.lastSnap)
    (h7 : s'.smSnap = s.smSnap) : s'.Named P :=
  ⟨by rw [h1]; exact h.1, by rw [h2]; exact h.2, by rw [h3]; exact h.3, by rw [h4]; exact h.4, by rw [h5]; exact h.5,
    by rw [h6]; exact h.6, by rw [h7]; exact h.7⟩

theorem nam_set {f : Srv → Srv} (h : ∀ s, (f s).peers = s.peers ∧ (f s).srvToJoin = s.srvToJoin ∧ (f s).confToAdd = s.confToAdd ∧
    (f s).config = s.config ∧ (f s).log = s.log ∧ (f s).lastSnap = s.lastSnap ∧ (f s).smSnap = s.smSnap ∧
    (f s).trace = s.trace) : Nam P (modify f : R PUnit) fun _ => True := by
  refine nam_modify fun s hs => ?_
  obtain ⟨h1, h2, h3, h4, h5, h6, h7, h8⟩ := h s
  exact ⟨hs.of h1 h2 h3 h4 h5 h6 h7, h8⟩

/-- A step that changes only fields without descriptions. -/
macro "plainly" : tactic => `(tactic| exact nam_set fun _ => ⟨rfl, rfl, rfl, rfl, rfl, rfl, rfl, rfl⟩)

theorem nam_die {V : α → Prop} {c : Int} : Nam P (die c : R α) V := nam_bind (nam_emit trivial) fun _ _ => nam_throw
theorem nam_saveState : Nam P saveState fun _ => True := nam_bind nam_get fun _ _ => nam_emit trivial

theorem find_named {s : Srv} (h : s.Named P) {i : Int} {p : Peer} (hp : s.findPeer i = some p) : p.Named P ∧ p.id = i :=
  ⟨h.peers p (List.mem_of_find?_eq_some hp), by have := List.find?_some hp; simpa using this⟩

theorem peer_named {s : Srv} (h : s.Named P) {r : PeerRef} {p : Peer} (hp : s.peer r = some p) : p.Named P := by
  cases r with
  | member i => exact (find_named h hp).1
  | joining => exact h.joining p hp

theorem nam_getPeer {r : PeerRef} : Nam P (getPeer r) (Peer.Named P) := by
  unfold getPeer
  refine nam_bind nam_get fun s hs => ?_
  split
  · exact nam_pure (peer_named hs (by assumption))
  · exact nam_throw

theorem nam_peerIds : Nam P peerIds fun ids => ∀ i ∈ ids, Dest P i :=
  nam_bind nam_get fun s hs => nam_pure fun i hi => by
    obtain ⟨p, hp, rfl⟩ := List.mem_map.1 hi
    exact ⟨p.cfg, (hs.peers p hp).cfg, rfl⟩

theorem setPeer_named {s : Srv} (h : s.Named P) {r : PeerRef} {f : Peer → Peer} (hf : ∀ p : Peer, p.Named P → (f p).Named P) :
    (s.setPeer r f).Named P ∧ (s.setPeer r f).trace = s.trace := by
  cases r with
  | member i =>
    refine ⟨⟨fun p hp => ?_, h.2, h.3, h.4, h.5, h.6, h.7⟩, rfl⟩
    obtain ⟨q, hq, rfl⟩ := List.mem_map.1 hp
    split
    · exact hf q (h.peers q hq)
    · exact h.peers q hq
  | joining =>
    refine ⟨⟨h.1, fun p hp => ?_, h.3, h.4, h.5, h.6, h.7⟩, rfl⟩
    obtain ⟨q, hq, rfl⟩ := Option.map_eq_some_iff.1 hp
    exact hf q (h.joining q hq)

theorem nam_modPeer {r : PeerRef} {f : Peer → Peer} (hf : ∀ p : Peer, p.Named P → (f p).Named P) :
    Nam P (modPeer r f) fun _ => True := nam_modify fun _ hs => setPeer_named hs hf

/-- A step that changes a peer, but not its description. -/
macro "peerly" : tactic => `(tactic| exact nam_modPeer fun _ hp => ⟨hp.1, hp.2⟩)

/-- Take a handler apart. -/
macro "nam" "using" ls:term,* : tactic => `(tactic|
  repeat' first
  | with_reducible assumption
  | exact trivial
  $[| with_reducible apply $ls]*
  | with_reducible exact nam_get
  | with_reducible exact nam_throw
  | with_reducible exact nam_set fun _ => ⟨rfl, rfl, rfl, rfl, rfl, rfl, rfl, rfl⟩
  | with_reducible exact nam_modPeer fun _ hp => ⟨hp.1, hp.2⟩
  | with_reducible apply nam_pure
  | with_reducible apply nam_bind
  | with_reducible apply nam_forEach
  | with_reducible apply nam_catch
  | with_reducible intro _
  | split)

theorem get_named {s : Srv} (h : s.Named P) {i : Nat} {e : Entry} (he : s.log.get? i = some e) : e.Named P := by
  unfold Log.get? at he
  split at he
  · cases he
  · exact h.log e (List.mem_of_getElem? he)

theorem nam_logAppend {e : Entry} (h : e.Named P) : Nam P (logAppend e) fun _ => True := by
  refine nam_bind (nam_modify fun s hs => ⟨⟨hs.1, hs.2, hs.3, hs.4, fun a ha => ?_, hs.6, hs.7⟩, rfl⟩) fun _ _ => nam_emit h
  rcases List.mem_append.1 ha with ha | ha
  · exact hs.log a ha
  · rw [List.mem_singleton.1 ha]; exact h

theorem replace_named {s : Srv} (hs : s.Named P) {i : Nat} {es : List Entry} (h : ∀ e ∈ es, e.Named P) :
    ∀ e ∈ (s.log.replaceFrom i es).ents, e.Named P := by
  intro a ha
  rcases List.mem_append.1 ha with ha | ha
  · exact hs.log a (List.mem_of_mem_take ha)
  · exact h a ha

theorem nam_logWriteAt {i : Nat} {e : Entry} (h : e.Named P) : Nam P (logWriteAt i e) fun _ => True :=
  nam_bind (nam_modify fun s hs => ⟨⟨hs.1, hs.2, hs.3, hs.4, replace_named hs fun a ha => by
    rw [List.mem_singleton.1 ha]; exact h, hs.6, hs.7⟩, rfl⟩) fun _ _ => nam_emit h

theorem nam_termAt {i : Nat} : Nam P (termAt i) fun _ => True := by
  unfold termAt
  nam using nam_die
theorem nam_entryAt {i : Nat} : Nam P (entryAt i) (Entry.Named P) := by
  unfold entryAt
  refine nam_bind nam_get fun s hs => ?_
  split
  · exact nam_pure (get_named hs (by assumption))
  · exact nam_throw
theorem nam_entryToApply {i : Nat} : Nam P (entryToApply i) (Entry.Named P) := by
  unfold entryToApply
  refine nam_bind nam_get fun s hs => ?_
  split
  · exact nam_pure (get_named hs (by assumption))
  · split
    · exact nam_die
    · exact nam_throw
theorem nam_logApplyPack {i : Nat} {es : List Entry} (h : ∀ e ∈ es, e.Named P) : Nam P (logApplyPack i es) fun _ => True := by
  unfold logApplyPack
  nam using nam_emit, nam_modify
  · rename_i hs
    exact ⟨⟨hs.1, hs.2, hs.3, hs.4, replace_named hs h, hs.6, hs.7⟩, rfl⟩
  · exact h
theorem nam_logCompact {i : Nat} : Nam P (logCompact i) fun _ => True := by
  unfold logCompact
  nam using nam_emit, nam_modify
  rename_i hs
  exact ⟨⟨hs.1, hs.2, hs.3, hs.4, fun e he => hs.log e (List.mem_of_mem_drop he), hs.6, hs.7⟩, rfl⟩
theorem nam_termForLog {i : Nat} : Nam P (termForLog i) fun _ => True := by
  unfold termForLog
  nam using nam_die, nam_termAt
theorem nam_restart : Nam P restartElectionTimer fun _ => True := by
  unfold restartElectionTimer
  nam using
theorem nam_stopTimer : Nam P stopElectionTimer fun _ => True := by
  unfold stopElectionTimer
  plainly
theorem nam_enableHb {r : PeerRef} : Nam P (enableHb r) fun _ => True := by
  unfold enableHb
  nam using
theorem nam_becomeFollower : Nam P becomeFollower fun _ => True := by
  unfold becomeFollower
  refine nam_bind (by plainly) fun _ _ => ?_
  refine nam_bind (nam_modify fun s hs => ⟨⟨fun p hp => ?_, hs.2, hs.3, hs.4, hs.5, hs.6, hs.7⟩, rfl⟩) fun _ _ => ?_
  · obtain ⟨q, hq, rfl⟩ := List.mem_map.1 hp
    exact ⟨(hs.peers q hq).1, (hs.peers q hq).2⟩
  refine nam_bind (nam_modify fun s hs => ⟨⟨hs.1, fun p hp => (by cases hp), hs.3, hs.4, hs.5, hs.6, hs.7⟩, rfl⟩) fun _ _ => ?_
  refine nam_bind (by plainly) fun _ _ => ?_
  exact nam_bind nam_restart fun _ _ => nam_emit trivial
theorem nam_updateTerm {t : Nat} : Nam P (updateTerm t) fun _ => True := by
  unfold updateTerm
  nam using nam_saveState, nam_becomeFollower

/-! ## Sending -/

theorem nam_chooseSnap {r : PeerRef} {i : Nat} : Nam P (chooseSnap r i) fun _ => True := by
  unfold chooseSnap
  refine nam_bind nam_get fun s hs => nam_bind nam_getPeer fun p _ => ?_
  refine nam_ite ?_ (nam_pure trivial)
  rcases hl : s.lastSnap with _ | snp
  · exact nam_throw
  · exact nam_ite nam_die (nam_ite nam_die (nam_modPeer fun q hq => ⟨hq.1, fun x hx => by cases hx; exact hs.last snp hl⟩))

theorem nam_createSync {r : PeerRef} {i t c : Nat} :
    Nam P (createSyncSnapshotReq r i t c) fun q => Dest P q.dst ∧ q.Named P := by
  unfold createSyncSnapshotReq
  refine nam_bind nam_chooseSnap fun _ _ => nam_bind nam_get fun s hs => nam_bind nam_getPeer fun p hp => ?_
  split
  · exact nam_throw
  · rename_i snp off hc
    split
    · exact nam_throw
    split
    · exact nam_die
    · refine nam_pure ⟨⟨p.cfg, hp.cfg, rfl⟩, fun e he => ?_, fun e he => (by cases he), fun q hq => ?_⟩
      · rw [List.mem_singleton.1 he]; exact trivial
      · cases hq; exact hp.ctx _ hc

theorem nam_entriesFrom {i : Nat} : Nam P (entriesFrom i) fun es => ∀ e ∈ es, e.Named P := by
  unfold entriesFrom
  refine nam_bind nam_get fun s hs => ?_
  split
  · exact nam_pure fun _ h => (by cases h)
  split
  · exact nam_throw
  · exact nam_pure fun e he => hs.log e (List.mem_of_mem_drop (List.mem_of_mem_take he))

theorem nam_appendReqFrom {r : PeerRef} {i : Nat} : Nam P (appendReqFrom r i) fun q => Dest P q.dst ∧ q.Named P := by
  unfold appendReqFrom
  refine nam_bind nam_termForLog fun t _ => nam_bind nam_entriesFrom fun es hes => nam_bind nam_get fun s _ =>
    nam_bind nam_getPeer fun p hp => nam_pure ⟨⟨p.cfg, hp.cfg, rfl⟩, hes, fun e he => (by cases he), fun q hq => (by cases hq)⟩

theorem nam_createAppend {r : PeerRef} : Nam P (createAppendReq r) fun q => Dest P q.dst ∧ q.Named P := by
  unfold createAppendReq
  refine nam_bind nam_get fun s _ => nam_bind (nam_modPeer fun p hp => ?_) fun _ _ => nam_bind nam_getPeer fun p _ => ?_
  · split
    · exact ⟨hp.1, hp.2⟩
    · exact hp
  split
  · exact nam_die
  split
  · exact nam_createSync
  · exact nam_appendReqFrom

theorem nam_requestAppend {r : PeerRef} : Nam P (requestAppend r) fun _ => True := by
  unfold requestAppend
  refine nam_bind nam_getPeer fun p _ => ?_
  split
  · exact nam_pure trivial
  · exact nam_bind (by peerly) fun _ _ => nam_bind nam_createAppend fun q hq => nam_bind (nam_emit hq) fun _ _ => nam_pure trivial

theorem nam_commitNotify {i : Int} : Nam P (commitNotify i) fun _ => True := by
  unfold commitNotify
  nam using nam_requestAppend
theorem nam_commit {n : Nat} : Nam P (commit n) fun _ => True := by
  unfold commit
  nam using nam_peerIds, nam_commitNotify, nam_emit
theorem nam_requestAppendTo {i : Int} : Nam P (requestAppendTo i) fun _ => True := by
  unfold requestAppendTo
  nam using nam_requestAppend
theorem nam_requestAppendAll : Nam P requestAppendAll fun _ => True := by
  unfold requestAppendAll
  nam using nam_commit, nam_peerIds, nam_requestAppendTo

/-! ## Elections -/

theorem nam_joinNone : Nam P (modify fun s => { s with srvToJoin := none } : R PUnit) fun _ => True :=
  nam_modify fun s hs => ⟨⟨hs.1, fun p hp => (by cases hp), hs.3, hs.4, hs.5, hs.6, hs.7⟩, rfl⟩
theorem nam_leaderPeer {i : Int} : Nam P (leaderPeer i) fun _ => True := by
  unfold leaderPeer
  exact nam_bind nam_get fun _ _ => nam_bind (nam_modPeer fun _ hp => ⟨hp.1, fun _ h => (by cases h)⟩) fun _ _ => nam_enableHb
theorem nam_initialConf : Nam P initialConf fun _ => True := by
  unfold initialConf
  refine nam_bind nam_get fun s _ => ?_
  split
  · refine nam_bind (nam_modify fun s hs => ⟨⟨hs.1, hs.2, hs.3, hs.4, hs.5, hs.6, hs.7⟩, rfl⟩) fun _ _ =>
      nam_bind nam_get fun s hs => nam_bind (nam_logAppend hs.config) fun _ _ => ?_
    plainly
  · exact nam_pure trivial
theorem nam_becomeLeader : Nam P becomeLeader fun _ => True := by
  unfold becomeLeader
  nam using nam_stopTimer, nam_peerIds, nam_leaderPeer, nam_initialConf, nam_requestAppendAll, nam_emit, nam_joinNone
theorem nam_askVote {ty : MsgType} {i : Int} (h : Dest P i) : Nam P (askVote ty i) fun _ => True := by
  unfold askVote
  nam using nam_termForLog, nam_emit
  exact ⟨h, fun e he => (by cases he), fun e he => (by cases he), fun q hq => (by cases hq)⟩
theorem nam_voteSelf : Nam P voteSelf fun _ => True := by
  unfold voteSelf
  nam using nam_saveState
theorem nam_askForVotes : Nam P askForVotes fun _ => True := by
  unfold askForVotes
  nam using nam_becomeLeader, nam_peerIds, nam_askVote
  rename_i h1 i h2; exact h1 i h2
theorem nam_startTerm : Nam P startTerm fun _ => True := by
  unfold startTerm
  nam using nam_saveState
theorem nam_becomeCandidate : Nam P becomeCandidate fun _ => True := by
  unfold becomeCandidate requestVote rearm
  nam using nam_startTerm, nam_voteSelf, nam_askForVotes, nam_restart
theorem nam_requestPrevote : Nam P requestPrevote fun _ => True := by
  unfold requestPrevote
  refine nam_bind nam_get fun s _ => ?_
  split
  · exact nam_becomeCandidate
  · exact nam_bind (by plainly) fun _ _ => nam_bind nam_peerIds fun ids h => nam_forEach fun i hi => nam_askVote (h i hi)
theorem nam_leaveConfig : Nam P leaveConfig fun _ => True := by
  unfold leaveConfig
  refine nam_bind nam_get fun s _ => ?_
  split
  · refine nam_bind (nam_modify fun s hs => ⟨⟨hs.1, hs.2, hs.3, fun x hx => ?_, hs.5, hs.6, hs.7⟩, rfl⟩) fun _ _ =>
      nam_bind nam_get fun s hs => nam_emit hs.config
    exact hs.config x (List.mem_of_mem_eraseP hx)
  · exact nam_pure trivial
theorem nam_electionTimeout : Nam P handleElectionTimeout fun _ => True := by
  unfold handleElectionTimeout
  nam using nam_leaveConfig, nam_die, nam_restart, nam_requestPrevote, nam_becomeCandidate
theorem nam_hbTimeout {r : PeerRef} : Nam P (handleHbTimeout r) fun _ => True := by
  unfold handleHbTimeout
  refine nam_bind (by peerly) fun _ _ => nam_bind nam_get fun s _ => ?_
  split
  · refine nam_bind nam_requestAppend fun _ _ => nam_modPeer fun p hp => ?_
    split
    · exact ⟨hp.1, hp.2⟩
    · exact hp
  · exact nam_pure trivial

/-! ## Requests -/

theorem nam_skipSame : ∀ {i : Nat} {es : List Entry}, (∀ e ∈ es, e.Named P) → Nam P (skipSame i es) fun q => ∀ e ∈ q.2, e.Named P
  | _, [], _ => nam_pure fun _ h => (by cases h)
  | i, e :: es, h => by
    unfold skipSame
    refine nam_bind nam_get fun s _ => ?_
    split
    · refine nam_bind nam_termAt fun t _ => ?_
      split
      · exact nam_skipSame fun a ha => h a (List.mem_cons_of_mem _ ha)
      · exact nam_pure h
    · exact nam_pure h
theorem nam_rollbackOld {i : Nat} : Nam P (rollbackOld i) fun _ => True := by
  unfold rollbackOld
  nam using nam_entryAt, nam_emit
theorem nam_noteNew {i : Nat} {e : Entry} : Nam P (noteNew i e) fun _ => True := by
  unfold noteNew
  nam using nam_emit
theorem nam_overwriteOld : ∀ {i : Nat} {es : List Entry}, (∀ e ∈ es, e.Named P) → Nam P (overwriteOld i es) fun q => ∀ e ∈ q, e.Named P
  | _, [], _ => nam_pure fun _ h => (by cases h)
  | i, e :: es, h => by
    unfold overwriteOld
    refine nam_bind nam_get fun s _ => ?_
    split
    · exact nam_bind nam_rollbackOld fun _ _ => nam_bind (nam_logWriteAt (h e (List.mem_cons_self ..))) fun _ _ =>
        nam_bind nam_noteNew fun _ _ => nam_overwriteOld fun a ha => h a (List.mem_cons_of_mem _ ha)
    · exact nam_pure h
theorem nam_appendNew : ∀ {es : List Entry}, (∀ e ∈ es, e.Named P) → Nam P (appendNew es) fun _ => True
  | [], _ => nam_pure trivial
  | e :: es, h => by
    unfold appendNew
    exact nam_bind nam_get fun s _ => nam_bind (nam_logAppend (h e (List.mem_cons_self ..))) fun _ _ =>
      nam_bind nam_noteNew fun _ _ => nam_appendNew fun a ha => h a (List.mem_cons_of_mem _ ha)
theorem nam_storeEntries {r : Req} (h : r.Named P) : Nam P (storeEntries r) fun _ => True := by
  unfold storeEntries
  exact nam_bind (nam_skipSame h.entries) fun q hq => nam_bind (nam_overwriteOld hq) fun es hes => nam_appendNew hes
theorem nam_hearLeader {r : Req} : Nam P (hearLeader r) fun _ => True := by
  unfold hearLeader
  nam using nam_becomeFollower, nam_die, nam_restart
theorem nam_logOkay {r : Req} : Nam P (logOkay r) fun _ => True := by
  unfold logOkay
  nam using nam_termForLog
theorem nam_appendEntries {r : Req} (h : r.Named P) : Nam P (handleAppendEntries r) fun _ => True := by
  have := nam_storeEntries h
  unfold handleAppendEntries
  nam using nam_hearLeader, nam_logOkay, nam_commit
theorem nam_voteReq {r : Req} : Nam P (handleVoteReq r) fun _ => True := by
  unfold handleVoteReq
  nam using nam_saveState
theorem nam_prevoteReq {r : Req} : Nam P (handlePrevoteReq r) fun _ => True := by
  unfold handlePrevoteReq
  nam using nam_saveState
theorem nam_isLeader : Nam P isLeader fun _ => True := by
  unfold isLeader
  nam using nam_saveState
theorem nam_appendClient : ∀ {es : List Entry}, (∀ e ∈ es, e.Named P) → Nam P (appendClient es) fun _ => True
  | [], _ => nam_pure trivial
  | e :: es, h => by
    unfold appendClient
    refine nam_bind nam_get fun s _ => nam_bind (nam_logAppend ?_) fun _ _ =>
      nam_bind (nam_emit trivial) fun _ _ => nam_appendClient fun a ha => h a (List.mem_cons_of_mem _ ha)
    exact h e (List.mem_cons_self ..)
theorem nam_cliReq {r : Req} (h : r.Named P) : Nam P (handleCliReq r) fun _ => True := by
  have := nam_appendClient h.entries
  unfold handleCliReq
  nam using nam_isLeader, nam_requestAppendAll
theorem nam_addPeer {c : SrvCfg} (h : P c) : Nam P (addPeer c) fun _ => True := by
  unfold addPeer
  refine nam_bind (nam_modify fun s hs => ?_) fun _ _ => nam_bind nam_get fun s _ => ?_
  · split
    · exact ⟨hs, rfl⟩
    · refine ⟨⟨fun p hp => ?_, hs.2, hs.3, hs.4, hs.5, hs.6, hs.7⟩, rfl⟩
      rcases List.mem_append.1 hp with hp | hp
      · exact hs.peers p hp
      · rw [List.mem_singleton.1 hp]
        exact ⟨h, fun _ h => (by cases h)⟩
  split
  · refine nam_bind nam_enableHb fun _ _ => ?_
    split
    · split
      · exact nam_bind (by peerly) fun _ _ =>
          nam_modify fun s hs => ⟨⟨hs.1, fun p hp => (by cases hp), hs.3, hs.4, hs.5, hs.6, hs.7⟩, rfl⟩
      · exact nam_pure trivial
    · exact nam_pure trivial
  · exact nam_pure trivial
theorem nam_removePeer {c : Config} (h : c.Named P) {i : Int} : Nam P (removePeer c i) fun _ => True := by
  unfold removePeer
  refine nam_bind nam_get fun s _ => ?_
  split
  · exact nam_bind (nam_emit h) fun _ _ => nam_die
  · exact nam_modify fun s hs => ⟨⟨fun p hp => hs.peers p (List.mem_filter.1 hp).1, hs.2, hs.3, hs.4, hs.5, hs.6, hs.7⟩, rfl⟩
theorem nam_reconfigure {c : Config} (h : c.Named P) : Nam P (reconfigure c) fun _ => True := by
  unfold reconfigure
  exact nam_bind nam_get fun s _ => nam_bind (nam_forEach fun x hx => nam_addPeer (h x (List.mem_filter.1 hx).1)) fun _ _ =>
    nam_bind (nam_forEach fun _ _ => nam_removePeer h) fun _ _ =>
    nam_modify fun s hs => ⟨⟨hs.1, hs.2, hs.3, h, hs.5, hs.6, hs.7⟩, rfl⟩
theorem nam_installSnapshot {q : Snap} (h : q.Named P) : Nam P (installSnapshot q) fun _ => True := by
  unfold installSnapshot
  refine nam_bind nam_get fun s _ => ?_
  split
  · exact nam_die
  refine nam_bind nam_logCompact fun ok _ => ?_
  split
  · refine nam_bind nam_stopTimer fun _ _ => nam_bind (nam_emit h) fun _ _ => ?_
    split
    · exact nam_die
    refine nam_bind (nam_modify fun s hs => ⟨⟨hs.1, hs.2, hs.3, hs.4, hs.5, hs.6, fun x hx => ?_⟩, rfl⟩) fun _ _ =>
      nam_bind (nam_reconfigure h) fun _ _ => nam_bind nam_get fun s hs => nam_bind (nam_emit hs.config) fun _ _ =>
      nam_bind (by plainly) fun _ _ => nam_bind nam_saveState fun _ _ =>
      nam_bind (nam_modify fun s hs => ⟨⟨hs.1, hs.2, hs.3, hs.4, hs.5, fun x hx => ?_, hs.7⟩, rfl⟩) fun _ _ =>
      nam_bind nam_restart fun _ _ => nam_pure trivial
    · cases hx; exact h
    · cases hx; exact hs.config
  · exact nam_pure trivial
theorem nam_snapshotSync {q : SnpSync} (h : q.snap.Named P) : Nam P (handleSnapshotSync q) fun _ => True := by
  have := nam_installSnapshot h
  unfold handleSnapshotSync
  nam using nam_emit, nam_die
theorem nam_hearSnapshotLeader {r : Req} : Nam P (hearSnapshotLeader r) fun _ => True := by
  unfold hearSnapshotLeader
  nam using nam_becomeFollower, nam_die, nam_restart
theorem nam_installReq {r : Req} (h : r.Named P) : Nam P (handleInstallSnapshot r) fun _ => True := by
  unfold handleInstallSnapshot
  refine nam_bind nam_hearSnapshotLeader fun _ _ => nam_bind nam_get fun s _ => ?_
  split
  · exact nam_pure trivial
  split
  · rename_i q _ hq
    split
    · exact nam_pure trivial
    · refine nam_bind (nam_snapshotSync (h.sync _ hq)) fun _ _ => ?_
      split <;> exact nam_pure trivial
  · exact nam_pure trivial
theorem nam_rmSrv {r : Req} : Nam P (handleRmSrv r) fun _ => True := by
  unfold handleRmSrv
  refine nam_bind nam_get fun s hs => ?_
  split
  · rename_i id _
    split
    · exact nam_pure trivial
    · rename_i hc
      refine nam_bind (nam_emit ⟨?_, fun e he => (by cases he), fun e he => (by cases he), fun q hq => (by cases hq)⟩) fun _ _ =>
        nam_pure trivial
      rcases hf : s.findPeer id with _ | p
      · rw [hf] at hc; simp at hc
      · exact ⟨p.cfg, (find_named hs hf).1.cfg, (find_named hs hf).2⟩
  · exact nam_pure trivial
theorem nam_inviteSrv : Nam P inviteSrv fun _ => True := by
  unfold inviteSrv
  refine nam_bind nam_get fun s hs => nam_bind nam_getPeer fun p hp =>
    nam_emit ⟨⟨p.cfg, hp.cfg, rfl⟩, fun e he => ?_, fun e he => (by cases he), fun q hq => (by cases hq)⟩
  rw [List.mem_singleton.1 he]
  exact hs.config
theorem nam_addSrv {r : Req} (h : r.Named P) : Nam P (handleAddSrv r) fun _ => True := by
  unfold handleAddSrv
  refine nam_bind nam_get fun s hs => ?_
  split
  · rename_i t c he
    have hc : P c := h.entries ⟨t, .srv c⟩ (by rw [he]; exact List.mem_singleton.2 rfl)
    split
    · exact nam_pure trivial
    · refine nam_bind (nam_modify fun s hs => ⟨⟨hs.1, hs.2, fun x hx => ?_, hs.4, hs.5, hs.6, hs.7⟩, rfl⟩) fun _ _ =>
        nam_bind (nam_modify fun s hs => ⟨⟨hs.1, fun x hx => ?_, hs.3, hs.4, hs.5, hs.6, hs.7⟩, rfl⟩) fun _ _ =>
        nam_bind nam_inviteSrv fun _ _ => nam_pure trivial
      · cases hx; exact hc
      · cases hx; exact ⟨hc, fun _ h => (by cases h)⟩
  · exact nam_pure trivial
theorem nam_logSync {r : Req} (h : r.Named P) : Nam P (handleLogSync r) fun _ => True := by
  have := nam_logApplyPack (i := r.lastIdx + 1) h.pack
  unfold handleLogSync
  nam using nam_commit
theorem nam_join {r : Req} (h : r.Named P) : Nam P (handleJoin r) fun _ => True := by
  unfold handleJoin
  refine nam_bind nam_get fun s hs => ?_
  split
  · rename_i t c he
    have hc : c.Named P := h.entries ⟨t, .conf c⟩ (by rw [he]; exact List.mem_singleton.2 rfl)
    have := nam_reconfigure hc
    split
    · exact nam_pure trivial
    · nam using nam_saveState
      all_goals plainly
  · exact nam_pure trivial
theorem nam_leave {r : Req} : Nam P (handleLeave r) fun _ => True := by
  unfold handleLeave
  nam using nam_saveState
theorem nam_extended {r : Req} (h : r.Named P) : Nam P (handleExtended r) fun _ => True := by
  unfold handleExtended
  split
  · exact nam_addSrv h
  · exact nam_rmSrv
  · exact nam_logSync h
  · exact nam_join h
  · exact nam_leave
  · exact nam_installReq h
  · exact nam_prevoteReq
  · exact nam_die
theorem nam_hearTerm {r : Req} : Nam P (hearTerm r) fun _ => True := by
  unfold hearTerm
  nam using nam_updateTerm
theorem nam_processReq {r : Req} (h : r.Named P) : Nam P (processReq r) fun _ => True := by
  have h1 := nam_appendEntries h
  have h2 := nam_cliReq h
  have h3 := nam_extended h
  unfold processReq dispatch
  nam using nam_hearTerm, nam_voteReq

/-! ## Responses -/

theorem nam_acceptedResp {r : Resp} : Nam P (acceptedResp r) fun _ => True := by
  unfold acceptedResp
  nam using nam_commit, nam_getPeer
theorem nam_refusedResp {r : Resp} : Nam P (refusedResp r) fun _ => True := by
  refine nam_bind (nam_modPeer fun p hp => ?_) fun _ _ => nam_pure trivial
  split
  · exact ⟨hp.1, hp.2⟩
  split
  · exact ⟨hp.1, hp.2⟩
  · exact hp
theorem nam_appendResp {r : Resp} : Nam P (handleAppendResp r) fun _ => True := by
  unfold handleAppendResp
  nam using nam_acceptedResp, nam_refusedResp, nam_requestAppendTo
theorem nam_acceptedSnpResp {r : Resp} : Nam P (acceptedSnpResp r) fun _ => True := by
  unfold acceptedSnpResp
  refine nam_bind nam_getPeer fun p hp => ?_
  split
  · exact nam_pure trivial
  · rename_i snp off hc
    split
    · exact nam_bind (nam_modPeer fun p hp => ⟨hp.1, fun _ h => (by cases h)⟩) fun _ _ =>
        nam_bind nam_get fun _ _ => nam_pure trivial
    · exact nam_bind (nam_modPeer fun q hq => ⟨hq.1, fun x hx => by cases hx; exact hp.ctx (snp, off) hc⟩) fun _ _ => nam_pure trivial
theorem nam_snpResp {r : Resp} : Nam P (handleSnpResp r) fun _ => True := by
  unfold handleSnpResp
  refine nam_bind nam_get fun s _ => nam_ite (nam_pure trivial) ?_
  have : ∀ b : Bool, Nam P (do
      let s ← get
      if s.role = .leader ∧ b = true then requestAppendTo r.src else pure ()) fun _ => True := fun b =>
    nam_bind nam_get fun _ _ => nam_ite nam_requestAppendTo (nam_pure trivial)
  exact nam_ite (nam_bind nam_acceptedSnpResp fun b _ => this b) (nam_bind (nam_pure (V := fun _ => True) trivial) fun b _ => this b)
theorem nam_votingResp {r : Resp} : Nam P (handleVotingResp r) fun _ => True := by
  unfold handleVotingResp
  nam using nam_becomeLeader
theorem nam_peerResp {r : Resp} : Nam P (handlePeerResp r) fun _ => True := by
  unfold handlePeerResp dispatchResp
  nam using nam_updateTerm, nam_votingResp, nam_appendResp, nam_snpResp, nam_die
theorem nam_prevoteResp {r : Resp} : Nam P (handlePrevoteResp r) fun _ => True := by
  unfold handlePrevoteResp
  nam using nam_becomeCandidate, nam_restart
theorem nam_addToConfig : Nam P addToConfig fun _ => True := by
  unfold addToConfig
  refine nam_bind nam_get fun s hs => ?_
  split
  · exact nam_throw
  · rename_i c hc
    refine nam_bind (nam_logAppend fun x hx => ?_) fun _ _ => nam_bind (by plainly) fun _ _ => nam_requestAppendAll
    rcases List.mem_append.1 hx with hx | hx
    · exact hs.config x hx
    · rw [List.mem_singleton.1 hx]; exact hs.adding c hc
theorem nam_syncLog {n : Nat} : Nam P (syncLogToNewSrv n) fun _ => True := by
  unfold syncLogToNewSrv
  refine nam_bind nam_get fun s hs => ?_
  split
  · exact nam_addToConfig
  split
  · exact nam_bind nam_createSync fun q hq => nam_emit hq
  split
  · exact nam_throw
  split
  · exact nam_throw
  · rename_i hpk
    refine nam_bind nam_getPeer fun p hp => nam_emit ⟨⟨p.cfg, hp.cfg, rfl⟩, fun e he => ?_, fun e he => ?_, fun q hq => (by cases hq)⟩
    · rw [List.mem_singleton.1 he]; exact trivial
    · exact hs.log e (packOf_mem hpk he)
theorem nam_rmFromCluster {i : Int} : Nam P (rmSrvFromCluster i) fun _ => True := by
  unfold rmSrvFromCluster
  refine nam_bind nam_get fun s hs => nam_bind (by plainly) fun _ _ => nam_bind (nam_logAppend fun x hx => ?_) fun _ _ =>
    nam_requestAppendAll
  exact hs.config x (List.mem_filter.1 hx).1
theorem nam_extSnpResp {r : Resp} : Nam P (handleExtSnpResp r) fun _ => True := by
  unfold handleExtSnpResp
  refine nam_bind nam_get fun s hs => ?_
  split
  · exact nam_pure trivial
  · rename_i p hj
    split
    · exact nam_pure trivial
    split
    · exact nam_die
    · rename_i snp off hc
      have hp := hs.joining p hj
      by_cases hn : snp.size ≤ r.nextIdx
      · simp only [if_pos hn]
        exact nam_bind (nam_modPeer fun p hp => ⟨hp.1, fun _ h => (by cases h)⟩) fun _ _ => nam_bind nam_getPeer fun q _ => nam_syncLog
      · simp only [if_neg hn]
        exact nam_bind (nam_modPeer fun q hq => ⟨hq.1, fun x hx => by cases hx; exact hp.ctx (snp, off) hc⟩) fun _ _ =>
          nam_bind nam_getPeer fun q _ => nam_syncLog
theorem nam_resumeHb {r : PeerRef} {q : Params} : Nam P (modPeer r (resumeHb q)) fun _ => True := by
  refine nam_modPeer fun p hp => ?_
  unfold resumeHb
  first | exact ⟨hp.1, hp.2⟩ | (split <;> exact ⟨hp.1, hp.2⟩)
theorem nam_extResp {r : Resp} : Nam P (handleExtResp r) fun _ => True := by
  unfold handleExtResp
  nam using nam_syncLog, nam_rmFromCluster, nam_extSnpResp, nam_prevoteResp, nam_die, nam_resumeHb
theorem nam_forceRemove {i : Int} : Nam P (forceRemove i) fun _ => True := by
  unfold forceRemove
  refine nam_bind (nam_modify fun s hs => ⟨⟨fun p hp => ?_, hs.2, hs.3, hs.4, hs.5, hs.6, hs.7⟩, rfl⟩) fun _ _ => nam_rmFromCluster
  have hp : p ∈ if s.peers.length = 1 then s.peers.filter fun p => p.id != i else s.peers := hp
  split at hp
  · exact hs.peers p (List.mem_filter.1 hp).1
  · exact hs.peers p hp
theorem nam_extErr {r : Req} : Nam P (handleExtErr r) fun _ => True := by
  unfold handleExtErr
  nam using nam_forceRemove
  all_goals first
    | peerly
    | exact nam_modify fun s hs => ⟨⟨hs.1, fun p hp => (by cases hp), hs.3, hs.4, hs.5, hs.6, hs.7⟩, rfl⟩
theorem nam_rpcResult {q : PeerRef} {ty : MsgType} {ok : Bool} : Nam P (rpcResult q ty ok) fun _ => True := by
  unfold rpcResult
  refine nam_bind nam_get fun s _ => nam_bind (nam_modPeer fun p hp => ?_) fun _ _ => nam_modPeer fun p hp => ?_
  · split
    · exact ⟨hp.1, hp.2⟩
    · exact hp
  · split
    · exact ⟨hp.1, hp.2⟩
    · exact ⟨hp.1, hp.2⟩

/-! ## The commit thread -/

theorem nam_commitConf {c : Config} (h : c.Named P) : Nam P (commitConf c) fun _ => True := by
  have := nam_reconfigure h
  unfold commitConf
  refine nam_bind (nam_emit h) fun _ _ => ?_
  nam using
theorem nam_findConf {i : Nat} : ∀ {n : Nat} {c : Config}, c.Named P → Nam P (findConf i n c) (Config.Named P)
  | 0, _, _ => nam_throw
  | n + 1, c, h => by
    unfold findConf
    refine nam_bind nam_get fun s _ => ?_
    split
    · refine nam_bind nam_entryAt fun e he => ?_
      unfold Entry.Named at he
      split
      · rename_i c' hv
        rw [hv] at he
        exact nam_findConf he
      · exact nam_throw
    · exact nam_pure h
theorem nam_confForSnap {i : Nat} : Nam P (confForSnap i) (Config.Named P) := by
  unfold confForSnap
  refine nam_bind nam_get fun s hs => nam_bind (nam_findConf hs.config) fun c hc => ?_
  split
  · split
    · exact nam_die
    · exact nam_pure (hs.last _ (by assumption))
  split
  · exact nam_die
  · exact nam_pure hc
theorem nam_startSnapshot {i : Nat} : Nam P (startSnapshot i) fun _ => True := by
  unfold startSnapshot
  exact nam_bind nam_confForSnap fun c hc => nam_bind nam_termAt fun t _ => nam_emit hc
theorem nam_snapshotAndCompact {i : Nat} : Nam P (snapshotAndCompact i) fun _ => True := by
  unfold snapshotAndCompact
  nam using nam_startSnapshot
theorem nam_keepSnap {q : Snap} (h : q.Named P) : Nam P (keepSnap q) fun _ => True := by
  unfold keepSnap
  refine nam_bind nam_get fun s _ => nam_bind
    (nam_modify fun s hs => ⟨⟨hs.1, hs.2, hs.3, hs.4, hs.5, hs.6, fun x hx => ?_⟩, rfl⟩) fun _ _ => nam_emit h
  cases hx; exact h
theorem nam_onSnapshotCompleted {q : Snap} {ok : Bool} (h : q.Named P) : Nam P (onSnapshotCompleted q ok) fun _ => True := by
  have : Nam P (modify fun s => { s with lastSnap := some q } : R PUnit) fun _ => True :=
    nam_modify fun s hs => ⟨⟨hs.1, hs.2, hs.3, hs.4, hs.5, fun x hx => by cases hx; exact h, hs.7⟩, rfl⟩
  unfold onSnapshotCompleted
  nam using nam_logCompact
theorem nam_applyEntry {i : Nat} {e : Entry} (h : e.Named P) : Nam P (applyEntry i e) fun _ => True := by
  unfold applyEntry
  unfold Entry.Named at h
  split
  · exact nam_emit trivial
  · rename_i c hv
    rw [hv] at h
    exact nam_commitConf h
  · exact nam_pure trivial
theorem nam_applyOne : Nam P applyOne fun _ => True := by
  unfold applyOne
  refine nam_bind nam_get fun s _ => ?_
  split
  · exact nam_bind (by plainly) fun _ _ => nam_bind nam_entryToApply fun e he => nam_bind (nam_applyEntry he) fun _ _ =>
      nam_snapshotAndCompact
  · exact nam_pure trivial
theorem nam_replicateLog {d : Nat} : Nam P (replicateLog d) fun _ => True := by
  unfold replicateLog
  refine nam_bind nam_isLeader fun b _ => ?_
  split
  · exact nam_bind nam_get fun s _ => nam_bind (nam_logAppend (by exact trivial)) fun _ _ =>
      nam_bind nam_requestAppendAll fun _ _ => nam_pure trivial
  · exact nam_pure trivial

/-- All inputs. -/
theorem nam_run {x : Input} (h : x.Named P) : Nam P x.run fun _ => True := by
  cases x with
  | req r => exact nam_bind (nam_processReq h) fun q _ => nam_emit trivial
  | peerResp ty r => exact nam_bind nam_rpcResult fun _ _ => nam_peerResp
  | extResp p ty r => exact nam_bind nam_rpcResult fun _ _ => nam_extResp
  | peerErr r => exact nam_rpcResult
  | extErr p r => exact nam_bind nam_rpcResult fun _ _ => nam_extErr
  | retry r =>
    show Nam P (retryReq r) _
    unfold retryReq
    split
    · exact nam_emit h
    · exact nam_pure trivial
  | electionTimeout => exact nam_electionTimeout
  | hbTimeout i => exact nam_hbTimeout
  | apply => exact nam_applyOne
  | snapDone q ok =>
    show Nam P (if ok then _ else _) _
    split
    · exact nam_bind (nam_keepSnap h) fun _ _ => nam_onSnapshotCompleted h
    · exact nam_onSnapshotCompleted h
  | replicate d => exact nam_bind nam_replicateLog fun _ _ => nam_pure trivial
  | tick n => exact nam_set fun _ => ⟨rfl, rfl, rfl, rfl, rfl, rfl, rfl, rfl⟩

/-! ## Histories -/

theorem Disk.Named.after {d : Disk} (h : d.Named P) {e : Eff} (he : e.Named P) : (d.after e).Named P := by
  cases e with
  | saveConfig c => exact ⟨he, h.2, h.3⟩
  | append e =>
    refine ⟨h.1, fun a ha => ?_, h.3⟩
    rcases List.mem_append.1 ha with ha | ha
    · exact h.log a ha
    · rw [List.mem_singleton.1 ha]; exact he
  | writeAt i e =>
    refine ⟨h.1, fun a ha => ?_, h.3⟩
    rcases List.mem_append.1 ha with ha | ha
    · exact h.log a (List.mem_of_mem_take ha)
    · rw [List.mem_singleton.1 ha]; exact he
  | applyPack i es =>
    refine ⟨h.1, fun a ha => ?_, h.3⟩
    rcases List.mem_append.1 ha with ha | ha
    · exact h.log a (List.mem_of_mem_take ha)
    · exact he a ha
  | compact i => exact ⟨h.1, fun a ha => h.log a (List.mem_of_mem_drop ha), h.3⟩
  | applySnp q => exact ⟨h.1, h.2, fun x hx => by cases hx; exact he⟩
  | madeSnp q => exact ⟨h.1, h.2, fun x hx => by cases hx; exact he⟩
  | _ => exact ⟨h.1, h.2, h.3⟩

theorem Disk.Named.afterAll {es : List Eff} : ∀ {d : Disk}, d.Named P → (∀ e ∈ es, e.Named P) → (d.afterAll es).Named P := by
  induction es with
  | nil => exact fun h _ => h
  | cons e es ih => exact fun h he => ih (h.after (he e (List.mem_cons_self ..))) fun a ha => he a (List.mem_cons_of_mem _ ha)

theorem bootPeers_named {id : Int} {pr : Params} : ∀ {cs : List SrvCfg} {ps : List Peer}, (∀ c ∈ cs, P c) → (∀ p ∈ ps, p.Named P) →
    ∀ p ∈ cs.foldl (bootPeer id pr) ps, p.Named P
  | [], _, _, h => h
  | c :: cs, ps, hc, h => by
    refine bootPeers_named (cs := cs) (ps := bootPeer id pr ps c) (fun x hx => hc x (List.mem_cons_of_mem _ hx)) fun p hp => ?_
    unfold bootPeer at hp
    split at hp
    · exact h p hp
    · rcases List.mem_append.1 hp with hp | hp
      · exact h p hp
      · rw [List.mem_singleton.1 hp]
        exact ⟨hc c (List.mem_cons_self ..), fun _ h => (by cases h)⟩

theorem Disk.Named.boot {d : Disk} (h : d.Named P) (id : Int) (pr : Params) (env : Env) : (boot id pr env d).Named P :=
  ⟨bootPeers_named h.config fun _ h => (by cases h), fun _ h => (by cases h), fun _ h => (by cases h), h.config, h.log, h.snap, h.snap⟩

/-- A node all of whose descriptions satisfy `P`. -/
structure Node.Named (P : SrvCfg → Prop) (n : Node) : Prop where
  disk : n.disk.Named P
  up : ∀ s, n.up = some s → s.Named P

theorem Node.Named.step {c : Setup} {n1 n2 : Node} {x : Option Input} {es : List Eff} (h : n1.Named P) (hs : n1.Step c x es n2)
    (hx : ∀ i, x = some i → i.Named P) : n2.Named P ∧ ∀ e ∈ es, e.Named P := by
  have key : ∀ (s : Srv) (i : Input), s.Named P → i.Named P → (i.run { s with trace := [] }).2.Named P ∧
      ∀ e ∈ (i.run { s with trace := [] }).2.trace, e.Named P := by
    intro s i h1 h2
    obtain ⟨⟨a1, es, a2, a3⟩, _⟩ := nam_run h2 { s with trace := [] } ⟨h1.1, h1.2, h1.3, h1.4, h1.5, h1.6, h1.7⟩
    refine ⟨a1, ?_⟩
    rw [a2]; exact a3
  cases hs with
  | run hr =>
    have := key _ _ (h.up _ rfl) (hx _ rfl)
    rw [hr] at this
    exact ⟨⟨h.disk.afterAll this.2, fun s hs => by cases hs; exact this.1⟩, this.2⟩
  | survive hr =>
    have := key _ _ (h.up _ rfl) (hx _ rfl)
    rw [hr] at this
    exact ⟨⟨h.disk.afterAll this.2, fun s hs => by cases hs; exact this.1⟩, this.2⟩
  | crash hp =>
    have := (key _ _ (h.up _ rfl) (hx _ rfl)).2
    have h2 : ∀ e ∈ es, e.Named P := fun e he => this e (hp.subset he)
    exact ⟨⟨h.disk.afterAll h2, fun s hs => (by cases hs)⟩, h2⟩
  | boot => exact ⟨⟨h.disk, fun s hs => by cases hs; exact h.disk.boot ..⟩, fun _ h => (by cases h)⟩

theorem Hist.named {c : Setup} {n n' : Node} {xs : List Input} {fx : List Eff} (h : Hist c n xs fx n') (hn : n.Named P)
    (hx : ∀ x ∈ xs, x.Named P) : n'.Named P ∧ ∀ e ∈ fx, e.Named P := by
  induction h with
  | nil => exact ⟨hn, fun _ h => (by cases h)⟩
  | step h1 hs ih =>
    obtain ⟨a1, a2⟩ := ih fun x hm => hx x (List.mem_append_left _ hm)
    obtain ⟨b1, b2⟩ := a1.step hs fun i hi => hx i (List.mem_append_right _ (by rw [hi]; simp))
    exact ⟨b1, fun e he => (List.mem_append.1 he).elim (a2 e) (b2 e)⟩

end Cs.Raft
