import Verif.Cluster.LocalAll
import Verif.Cluster.Complete

/-!
# A server that compacts its log keeps to the protocol: basics

As `Verif/Cluster/Local.lean`, for servers that take snapshots of their own. `pre` are the entries the log has lost to
`compact`: for the protocol the server still has them. Effects that have to do with snapshots are left out.
-/

namespace Cs.Raft.Cut
open Cs Cs.Raft

/-- Effects the protocol has to allow: all but orders for a snapshot and snapshots that are sent. -/
def core : Eff → Bool
  | .createSnp _ => false
  | .send m => m.type != .snpReq
  | _ => true

/-- The part of a server the protocol looks at, with the entries `pre` it has compacted. -/
def abs (pre : List Entry) (s : Srv) : PS :=
  ⟨s.term, s.vote, pre ++ s.log.ents, s.role, !s.electionCompleted, s.quickCommit⟩

/-- A log that lacks the entries `pre`: it has not become empty, the last snapshot of the state machine does not end before
it begins, and not everything a snapshot covers is compacted. -/
structure CutOk (pre : List Entry) (l : Log) (snp : Option Snap) (pr : Params) : Prop where
  full : pre = [] ∨ l.ents ≠ []
  snap : ∀ x, snp = some x → l.start ≤ x.lastIdx
  kept : 1 ≤ pr.reserved

/-- The server is configured for the cluster, and its counts are backed by answers. -/
structure Good (cs : List SrvCfg) (H : History) (i : Int) (pre : List Entry) (s : Srv) : Prop where
  id : s.id = i
  start : s.log.start = pre.length + 1
  ids : s.peers.map Peer.id = (cs.map SrvCfg.id).filter (· != i)
  servers : s.config.servers = cs
  catching : s.catchingUp = false
  steps : s.stepsToDown = 0
  join : s.srvToJoin = none
  cut : CutOk pre s.log s.smSnap s.params
  conf : ∀ e ∈ pre ++ s.log.ents, ConfOk cs e
  votes : s.electionCompleted = false → ∃ V : List Int, V.Nodup ∧ V.length = s.votesGranted ∧ (∀ v ∈ V, v ∈ s.voted) ∧
    ∀ v ∈ V, v ∈ cs.map SrvCfg.id ∧ GrantedBy H i s.term s.vote v
  matched : ∀ k ∈ s.peers.map Peer.key, ∀ n, 0 < n → n ≤ k.2 → Acked H k.1.id n

/-- Nothing before the first entry of the log is written. -/
def High (pre : List Entry) (es : List Eff) : Prop := ∀ k x, Eff.writeAt k x ∈ es → pre.length < k

theorem High.nil {pre : List Entry} : High pre [] := fun _ _ h => by cases h

theorem High.one {pre : List Entry} {e : Eff} (h : ∀ k x, e ≠ .writeAt k x) : High pre [e] :=
  fun k x hm => absurd (List.mem_singleton.1 hm).symm (h k x)

theorem High.append {pre : List Entry} {a b : List Eff} (h1 : High pre a) (h2 : High pre b) : High pre (a ++ b) :=
  fun k x h => (List.mem_append.1 h).elim (h1 k x) (h2 k x)

/-- From `s` to `s'` along allowed effects. -/
def T (cs : List SrvCfg) (H : History) (i : Int) (pre : List Entry) (s s' : Srv) : Prop :=
  Good cs H i pre s' ∧ ∃ es, s'.trace = s.trace ++ es ∧ Path cs H i (abs pre s) (es.filter core) (abs pre s') ∧
    High pre es

/-- The relation handlers establish. -/
def QA (cs : List SrvCfg) (H : History) (i : Int) (pre : List Entry) (s s' : Srv) : Prop :=
  Good cs H i pre s → T cs H i pre s s'

/-- The same for parts that run while the server is leader. -/
def QL (cs : List SrvCfg) (H : History) (i : Int) (pre : List Entry) (s s' : Srv) : Prop :=
  Good cs H i pre s → s.role = .leader → T cs H i pre s s' ∧ s'.role = .leader ∧ s'.term = s.term

/-- Nothing of interest changes. -/
structure Still (s s' : Srv) : Prop where
  id : s'.id = s.id
  term : s'.term = s.term
  vote : s'.vote = s.vote
  role : s'.role = s.role
  log : s'.log = s.log
  completed : s'.electionCompleted = s.electionCompleted
  votes : s'.votesGranted = s.votesGranted
  voted : s'.voted = s.voted
  quick : s'.quickCommit = s.quickCommit
  peers : s'.peers.map Peer.key = s.peers.map Peer.key
  servers : s'.config.servers = s.config.servers
  catching : s'.catchingUp = s.catchingUp
  steps : s'.stepsToDown = s.stepsToDown
  join : s.srvToJoin = none → s'.srvToJoin = none
  params : s'.params = s.params
  snap : s'.smSnap = s.smSnap

theorem Still.refl (s : Srv) : Still s s := ⟨rfl, rfl, rfl, rfl, rfl, rfl, rfl, rfl, rfl, rfl, rfl, rfl, rfl, fun h => h, rfl, rfl⟩

variable {cs : List SrvCfg} {H : History} {i : Int} {pre : List Entry}

theorem Still.good {s s' : Srv} (h : Still s s') (g : Good cs H i pre s) : Good cs H i pre s' := by
  refine ⟨h.id.trans g.id, by rw [h.log]; exact g.start, (ids_of_keys' h.peers).trans g.ids, h.servers.trans g.servers,
    h.catching.trans g.catching, h.steps.trans g.steps, h.join g.join, by rw [h.params, h.log, h.snap]; exact g.cut, ?_, ?_, ?_⟩
  · rw [h.log]; exact g.conf
  · rw [h.completed, h.votes, h.voted, h.term, h.vote]; exact g.votes
  · rw [h.peers]; exact g.matched

theorem Still.abs {s s' : Srv} (h : Still s s') : Cut.abs pre s' = Cut.abs pre s := by
  unfold Cut.abs
  rw [h.term, h.vote, h.log, h.role, h.completed, h.quick]

theorem T.refl {s : Srv} (g : Good cs H i pre s) : T cs H i pre s s := ⟨g, [], by simp, .nil _, High.nil⟩

theorem T.trans {a b c : Srv} (h1 : T cs H i pre a b) (h2 : T cs H i pre b c) : T cs H i pre a c := by
  obtain ⟨_, e1, t1, p1, w1⟩ := h1
  obtain ⟨g2, e2, t2, p2, w2⟩ := h2
  exact ⟨g2, e1 ++ e2, by rw [t2, t1, List.append_assoc], by rw [List.filter_append]; exact p1.append p2,
    w1.append w2⟩

theorem QA.po : PO (QA cs H i pre) := ⟨fun _ g => T.refl g, fun h1 h2 g => (h1 g).trans (h2 (h1 g).1)⟩

theorem QL.po : PO (QL cs H i pre) := ⟨fun _ g hr => ⟨T.refl g, hr, rfl⟩, fun h1 h2 g hr => by
  obtain ⟨t1, r1, e1⟩ := h1 g hr
  obtain ⟨t2, r2, e2⟩ := h2 t1.1 r1
  exact ⟨t1.trans t2, r2, e2.trans e1⟩⟩

/-- Neutral effects. -/
def Plain (cs : List SrvCfg) (e : Eff) : Prop := core e = true → e.neutral ∧ EffOk cs e

theorem T.of {s s' : Srv} {es : List Eff} (g : Good cs H i pre s') (ht : s'.trace = s.trace ++ es)
    (hc : ∀ e ∈ es, core e = true) (p : Path cs H i (abs pre s) es (abs pre s'))
    (hw : High pre es) : T cs H i pre s s' :=
  ⟨g, es, ht, by rw [List.filter_eq_self.2 hc]; exact p, hw⟩

theorem Still.T {s s' : Srv} {es : List Eff} (h : Still s s') (ht : s'.trace = s.trace ++ es) (hp : ∀ e ∈ es, Plain cs e)
    (g : Good cs H i pre s) : T cs H i pre s s' :=
  ⟨h.good g, es, ht, by
    rw [h.abs]
    refine .const fun e he => ?_
    obtain ⟨h1, h2⟩ := List.mem_filter.1 he
    exact ⟨.other (hp e h1 h2).1, (hp e h1 h2).2⟩, fun k x hk => ((hp _ hk rfl).1 : False).elim⟩

/-- Relations that allow neutral changes. -/
class Lax (cs : List SrvCfg) (Q : Srv → Srv → Prop) : Prop where
  po : PO Q
  still {s s' : Srv} {es : List Eff} : Still s s' → s'.trace = s.trace ++ es → (∀ e ∈ es, Plain cs e) → Q s s'

instance : Lax cs (QA cs H i pre) := ⟨QA.po, fun h ht hp g => h.T ht hp g⟩
instance : Lax cs (QL cs H i pre) :=
  ⟨QL.po, fun h ht hp g hr => ⟨h.T ht hp g, h.role.trans hr, h.term⟩⟩

/-! ## Parts that change nothing of interest -/

section
variable {Q : Srv → Srv → Prop} (cs) [hlax : Lax cs Q]
include hlax

theorem lpo : PO Q := Lax.po cs

theorem lx_mod {f : Srv → Srv} (h : ∀ s, Still s (f s) ∧ (f s).trace = s.trace) : Pres Q (modify f : R PUnit) := fun s =>
  Lax.still (cs := cs) (es := []) (h s).1 (by rw [List.append_nil]; exact (h s).2) (by simp)

theorem lx_emit {e : Eff} (h : Plain cs e) : Pres Q (emit e) := fun s =>
  Lax.still (cs := cs) (es := [e]) ⟨rfl, rfl, rfl, rfl, rfl, rfl, rfl, rfl, rfl, rfl, rfl, rfl, rfl, id, rfl, rfl⟩ rfl
    (by intro x hx; rw [List.mem_singleton.1 hx]; exact h)

theorem lx_die {α : Type} (c : Int) : Pres Q (die c : R α) := fun s =>
  Lax.still (cs := cs) (es := [.exit c]) ⟨rfl, rfl, rfl, rfl, rfl, rfl, rfl, rfl, rfl, rfl, rfl, rfl, rfl, id, rfl, rfl⟩ rfl
    (by intro x hx; rw [List.mem_singleton.1 hx]; exact fun _ => ⟨trivial, trivial⟩)

omit hlax in
theorem still_setPeer (s : Srv) (r : PeerRef) (f : Peer → Peer)
    (hf : ∀ p, (f p).cfg = p.cfg ∧ (f p).matched = p.matched) : Still s (s.setPeer r f) := by
  have h := calm_setPeer s r f hf
  cases r with
  | member k => exact ⟨rfl, rfl, rfl, rfl, rfl, rfl, rfl, rfl, rfl, h.peers, rfl, rfl, rfl, id, rfl, rfl⟩
  | joining =>
    exact ⟨rfl, rfl, rfl, rfl, rfl, rfl, rfl, rfl, rfl, h.peers, rfl, rfl, rfl,
      fun hn => by show s.srvToJoin.map f = none; rw [hn]; rfl, rfl, rfl⟩

theorem lx_modPeer (r : PeerRef) (f : Peer → Peer) (hf : ∀ p, (f p).cfg = p.cfg ∧ (f p).matched = p.matched) :
    Pres Q (modPeer r f) := fun s =>
  Lax.still (cs := cs) (es := []) (still_setPeer s r f hf) (by cases r <;> exact (List.append_nil _).symm) (by simp)

theorem lx_getPeer (r : PeerRef) : Pres Q (getPeer r) := by
  unfold getPeer
  pres (lpo cs) using lx_die cs
theorem lx_peerIds : Pres Q peerIds := fun s => (lpo cs).refl s
theorem lx_termAt (k : Nat) : Pres Q (termAt k) := by
  unfold termAt
  pres (lpo cs) using lx_die cs
theorem lx_entryAt (k : Nat) : Pres Q (entryAt k) := by
  unfold entryAt
  pres (lpo cs) using lx_die cs
theorem lx_termForLog (k : Nat) : Pres Q (termForLog k) := by
  unfold termForLog
  pres (lpo cs) using lx_die cs, lx_termAt cs
theorem lx_restart : Pres Q restartElectionTimer := by
  unfold restartElectionTimer
  pres (lpo cs) using lx_mod cs
  exact ⟨⟨rfl, rfl, rfl, rfl, rfl, rfl, rfl, rfl, rfl, rfl, rfl, rfl, rfl, id, rfl, rfl⟩, rfl⟩
theorem lx_enableHb (r : PeerRef) : Pres Q (enableHb r) := by
  unfold enableHb
  pres (lpo cs) using lx_modPeer cs
  exact ⟨rfl, rfl⟩
theorem lx_leaderPeer (k : Int) : Pres Q (leaderPeer k) := by
  unfold leaderPeer
  pres (lpo cs) using lx_modPeer cs, lx_enableHb cs
  exact ⟨rfl, rfl⟩
theorem lx_isLeader : Pres Q isLeader := by
  unfold isLeader
  pres (lpo cs) using lx_mod cs
  exact ⟨⟨rfl, rfl, rfl, rfl, rfl, rfl, rfl, rfl, rfl, rfl, rfl, rfl, rfl, id, rfl, rfl⟩, rfl⟩
theorem lx_refusedResp (r : Resp) : Pres Q (refusedResp r) := by
  unfold refusedResp
  pres (lpo cs) using lx_modPeer cs
  all_goals exact ⟨rfl, rfl⟩
theorem lx_rpcResult (r : PeerRef) (ty : MsgType) (ok : Bool) : Pres Q (rpcResult r ty ok) := by
  unfold rpcResult
  pres (lpo cs) using lx_modPeer cs
  all_goals exact ⟨rfl, rfl⟩
theorem lx_rearm : Pres Q rearm := by
  unfold rearm
  pres (lpo cs) using lx_restart cs
theorem lx_handlePrevoteReq (r : Req) : Pres Q (handlePrevoteReq r) := by
  unfold handlePrevoteReq
  pres (lpo cs) using lx_die cs
theorem lx_askPrevote (k : Int) : Pres Q (askVote .prevoteReq k) := by
  unfold askVote
  pres (lpo cs) using lx_termForLog cs, lx_emit cs
  exact fun _ => ⟨rfl, ⟨.inr (.inr rfl), by simp⟩⟩
end

end Cs.Raft.Cut
