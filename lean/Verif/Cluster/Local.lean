import Verif.Raft.Advance
import Verif.Raft.Accept
import Verif.Cluster.Proto

/-!
# A server keeps to the protocol: basics

`T s s'`: the server goes from `s` to `s'` along effects that `Act` allows, given the effects `H` of all servers so far.
The members of the cluster are fixed (`cs`).
-/

namespace Cs.Raft
open Cs

/-- The part of a server the protocol looks at. -/
def abs (s : Srv) : PS := ⟨s.term, s.vote, s.log.ents, s.role, !s.electionCompleted, s.quickCommit⟩

/-- Configuration entries list the members. -/
def ConfOk (cs : List SrvCfg) (e : Entry) : Prop := ∀ c, e.val = .conf c → c.servers = cs

/-- Only these requests are sent, and configurations list the members. -/
def EffOk (cs : List SrvCfg) : Eff → Prop
  | .send m => (m.type = .voteReq ∨ m.type = .appendReq ∨ m.type = .prevoteReq) ∧ ∀ e ∈ m.entries, ConfOk cs e
  | .saveConfig c => c.servers = cs
  | .append e => ConfOk cs e
  | .writeAt _ e => ConfOk cs e
  | _ => True

/-- A server of the cluster. -/
class Member (cs : List SrvCfg) (i : Int) : Prop where
  nodup : (cs.map SrvCfg.id).Nodup
  mem : i ∈ cs.map SrvCfg.id
  ne : i ≠ -1

/-- The server `v` has granted `i` its vote for term `t`; `vote` is the own vote of `i`. -/
def GrantedBy (H : History) (i : Int) (t : Nat) (vote : Int) (v : Int) : Prop :=
  v = i ∧ vote = i ∨ ∃ r, (v, .reply r) ∈ H ∧ r.type = .voteResp ∧ r.accepted = true ∧ r.term = t ∧ r.dst = i

/-- The server `v` has said that it has everything up to index `n`. -/
def Acked (H : History) (v : Int) (n : Nat) : Prop :=
  ∃ r, (v, .reply r) ∈ H ∧ r.type = .appendResp ∧ r.accepted = true ∧ n < r.nextIdx

/-- The server is configured for the cluster, and its counts are backed by answers. -/
structure Good (cs : List SrvCfg) (H : History) (i : Int) (s : Srv) : Prop where
  id : s.id = i
  start : s.log.start = 1
  ids : s.peers.map Peer.id = (cs.map SrvCfg.id).filter (· != i)
  servers : s.config.servers = cs
  catching : s.catchingUp = false
  steps : s.stepsToDown = 0
  join : s.srvToJoin = none
  dist : s.params.snpDistance = 0
  conf : ∀ e ∈ s.log.ents, ConfOk cs e
  votes : s.electionCompleted = false → ∃ V : List Int, V.Nodup ∧ V.length = s.votesGranted ∧ (∀ v ∈ V, v ∈ s.voted) ∧
    ∀ v ∈ V, v ∈ cs.map SrvCfg.id ∧ GrantedBy H i s.term s.vote v
  matched : ∀ k ∈ s.peers.map Peer.key, ∀ n, 0 < n → n ≤ k.2 → Acked H k.1.id n

/-- Sequences of effects. -/
inductive Path (cs : List SrvCfg) (H : History) (i : Int) : PS → List Eff → PS → Prop
  | nil (c : PS) : Path cs H i c [] c
  | act {c c' c'' : PS} {e : Eff} {es : List Eff} : Act (cs.map SrvCfg.id) H i c e c' → EffOk cs e →
      Path cs H i c' es c'' → Path cs H i c (e :: es) c''
  | quiet {c c' c'' : PS} {es : List Eff} : Quiet H i c c' → c'.qc = c.qc → Path cs H i c' es c'' → Path cs H i c es c''

/-- From `s` to `s'` along allowed effects. -/
def T (cs : List SrvCfg) (H : History) (i : Int) (s s' : Srv) : Prop :=
  Good cs H i s' ∧ ∃ es, s'.trace = s.trace ++ es ∧ Path cs H i (abs s) es (abs s')

/-- The relation handlers establish. -/
def QA (cs : List SrvCfg) (H : History) (i : Int) (s s' : Srv) : Prop := Good cs H i s → T cs H i s s'

/-- The same for parts that run while the server is leader. -/
def QL (cs : List SrvCfg) (H : History) (i : Int) (s s' : Srv) : Prop :=
  Good cs H i s → s.role = .leader → T cs H i s s' ∧ s'.role = .leader ∧ s'.term = s.term

/-- Nothing of interest changes. -/
structure Still (s s' : Srv) : Prop where
  id : s'.id = s.id
  term : s'.term = s.term
  vote : s'.vote = s.vote
  role : s'.role = s.role
  log : s'.log = s.log
  completed : s'.electionCompleted = s.electionCompleted
  votes : s'.votesGranted = s.votesGranted
  voted : s'.voted = s.voted
  quick : s'.quickCommit = s.quickCommit
  peers : s'.peers.map Peer.key = s.peers.map Peer.key
  servers : s'.config.servers = s.config.servers
  catching : s'.catchingUp = s.catchingUp
  steps : s'.stepsToDown = s.stepsToDown
  join : s.srvToJoin = none → s'.srvToJoin = none
  params : s'.params = s.params

theorem Still.refl (s : Srv) : Still s s := ⟨rfl, rfl, rfl, rfl, rfl, rfl, rfl, rfl, rfl, rfl, rfl, rfl, rfl, fun h => h, rfl⟩

variable {cs : List SrvCfg} {H : History} {i : Int}

theorem ids_of_keys' {ps qs : List Peer} (h : ps.map Peer.key = qs.map Peer.key) : ps.map Peer.id = qs.map Peer.id := by
  have := congrArg (List.map fun k : SrvCfg × Nat => k.1.id) h
  rw [List.map_map, List.map_map] at this
  exact this

theorem Still.good {s s' : Srv} (h : Still s s') (g : Good cs H i s) : Good cs H i s' := by
  refine ⟨h.id.trans g.id, by rw [h.log]; exact g.start, (ids_of_keys' h.peers).trans g.ids, h.servers.trans g.servers,
    h.catching.trans g.catching, h.steps.trans g.steps, h.join g.join, by rw [h.params]; exact g.dist, ?_, ?_, ?_⟩
  · rw [h.log]; exact g.conf
  · rw [h.completed, h.votes, h.voted, h.term, h.vote]; exact g.votes
  · rw [h.peers]; exact g.matched

theorem Still.abs {s s' : Srv} (h : Still s s') : abs s' = abs s := by
  unfold Cs.Raft.abs
  rw [h.term, h.vote, h.log, h.role, h.completed, h.quick]

theorem Path.append {a b c : PS} {es fs : List Eff} (h1 : Path cs H i a es b) (h2 : Path cs H i b fs c) :
    Path cs H i a (es ++ fs) c := by
  induction h1 with
  | nil => exact h2
  | act ha he _ ih => exact .act ha he (ih h2)
  | quiet hq he _ ih => exact .quiet hq he (ih h2)

theorem Path.one {a b : PS} {e : Eff} (h : Act (cs.map SrvCfg.id) H i a e b) (he : EffOk cs e) : Path cs H i a [e] b :=
  .act h he (.nil _)

theorem Path.const {c : PS} : ∀ {es : List Eff}, (∀ e ∈ es, Act (cs.map SrvCfg.id) H i c e c ∧ EffOk cs e) →
    Path cs H i c es c
  | [], _ => .nil c
  | e :: _, h => .act (h e List.mem_cons_self).1 (h e List.mem_cons_self).2
      (Path.const fun x hx => h x (List.mem_cons_of_mem _ hx))

theorem T.refl {s : Srv} (g : Good cs H i s) : T cs H i s s := ⟨g, [], by simp, .nil _⟩

theorem T.trans {a b c : Srv} (h1 : T cs H i a b) (h2 : T cs H i b c) : T cs H i a c := by
  obtain ⟨_, e1, t1, p1⟩ := h1
  obtain ⟨g2, e2, t2, p2⟩ := h2
  exact ⟨g2, e1 ++ e2, by rw [t2, t1, List.append_assoc], p1.append p2⟩

theorem QA.po : PO (QA cs H i) := ⟨fun _ g => T.refl g, fun h1 h2 g => (h1 g).trans (h2 (h1 g).1)⟩

theorem QL.po : PO (QL cs H i) := ⟨fun _ g hr => ⟨T.refl g, hr, rfl⟩, fun h1 h2 g hr => by
  obtain ⟨t1, r1, e1⟩ := h1 g hr
  obtain ⟨t2, r2, e2⟩ := h2 t1.1 r1
  exact ⟨t1.trans t2, r2, e2.trans e1⟩⟩

/-- Neutral effects. -/
def Plain (cs : List SrvCfg) (e : Eff) : Prop := e.neutral ∧ EffOk cs e

theorem Still.T {s s' : Srv} {es : List Eff} (h : Still s s') (ht : s'.trace = s.trace ++ es) (hp : ∀ e ∈ es, Plain cs e)
    (g : Good cs H i s) : T cs H i s s' :=
  ⟨h.good g, es, ht, by rw [h.abs]; exact .const fun e he => ⟨.other (hp e he).1, (hp e he).2⟩⟩

/-- Relations that allow neutral changes. -/
class Lax (cs : List SrvCfg) (Q : Srv → Srv → Prop) : Prop where
  po : PO Q
  still {s s' : Srv} {es : List Eff} : Still s s' → s'.trace = s.trace ++ es → (∀ e ∈ es, Plain cs e) → Q s s'

instance : Lax cs (QA cs H i) := ⟨QA.po, fun h ht hp g => h.T ht hp g⟩
instance : Lax cs (QL cs H i) :=
  ⟨QL.po, fun h ht hp g hr => ⟨h.T ht hp g, h.role.trans hr, h.term⟩⟩

/-! ## Parts that change nothing of interest -/

section
variable {Q : Srv → Srv → Prop} (cs) [hlax : Lax cs Q]
include hlax

theorem lpo : PO Q := Lax.po cs

theorem lx_mod {f : Srv → Srv} (h : ∀ s, Still s (f s) ∧ (f s).trace = s.trace) : Pres Q (modify f : R PUnit) := fun s =>
  Lax.still (cs := cs) (es := []) (h s).1 (by rw [List.append_nil]; exact (h s).2) (by simp)

theorem lx_emit {e : Eff} (h : Plain cs e) : Pres Q (emit e) := fun s =>
  Lax.still (cs := cs) (es := [e]) ⟨rfl, rfl, rfl, rfl, rfl, rfl, rfl, rfl, rfl, rfl, rfl, rfl, rfl, id, rfl⟩ rfl
    (by intro x hx; rw [List.mem_singleton.1 hx]; exact h)

theorem lx_die {α : Type} (c : Int) : Pres Q (die c : R α) := fun s =>
  Lax.still (cs := cs) (es := [.exit c]) ⟨rfl, rfl, rfl, rfl, rfl, rfl, rfl, rfl, rfl, rfl, rfl, rfl, rfl, id, rfl⟩ rfl
    (by intro x hx; rw [List.mem_singleton.1 hx]; exact ⟨trivial, trivial⟩)

omit hlax in
theorem still_setPeer (s : Srv) (r : PeerRef) (f : Peer → Peer)
    (hf : ∀ p, (f p).cfg = p.cfg ∧ (f p).matched = p.matched) : Still s (s.setPeer r f) := by
  have h := calm_setPeer s r f hf
  cases r with
  | member k => exact ⟨rfl, rfl, rfl, rfl, rfl, rfl, rfl, rfl, rfl, h.peers, rfl, rfl, rfl, id, rfl⟩
  | joining =>
    exact ⟨rfl, rfl, rfl, rfl, rfl, rfl, rfl, rfl, rfl, h.peers, rfl, rfl, rfl,
      fun hn => by show s.srvToJoin.map f = none; rw [hn]; rfl, rfl⟩

theorem lx_modPeer (r : PeerRef) (f : Peer → Peer) (hf : ∀ p, (f p).cfg = p.cfg ∧ (f p).matched = p.matched) :
    Pres Q (modPeer r f) := fun s =>
  Lax.still (cs := cs) (es := []) (still_setPeer s r f hf) (by cases r <;> exact (List.append_nil _).symm) (by simp)

theorem lx_getPeer (r : PeerRef) : Pres Q (getPeer r) := by
  unfold getPeer
  pres (lpo cs) using lx_die cs
theorem lx_peerIds : Pres Q peerIds := fun s => (lpo cs).refl s
theorem lx_termAt (k : Nat) : Pres Q (termAt k) := by
  unfold termAt
  pres (lpo cs) using lx_die cs
theorem lx_entryAt (k : Nat) : Pres Q (entryAt k) := by
  unfold entryAt
  pres (lpo cs) using lx_die cs
theorem lx_termForLog (k : Nat) : Pres Q (termForLog k) := by
  unfold termForLog
  pres (lpo cs) using lx_die cs, lx_termAt cs
theorem lx_restart : Pres Q restartElectionTimer := by
  unfold restartElectionTimer
  pres (lpo cs) using lx_mod cs
  exact ⟨⟨rfl, rfl, rfl, rfl, rfl, rfl, rfl, rfl, rfl, rfl, rfl, rfl, rfl, id, rfl⟩, rfl⟩
theorem lx_enableHb (r : PeerRef) : Pres Q (enableHb r) := by
  unfold enableHb
  pres (lpo cs) using lx_modPeer cs
  exact ⟨rfl, rfl⟩
theorem lx_leaderPeer (k : Int) : Pres Q (leaderPeer k) := by
  unfold leaderPeer
  pres (lpo cs) using lx_modPeer cs, lx_enableHb cs
  exact ⟨rfl, rfl⟩
theorem lx_isLeader : Pres Q isLeader := by
  unfold isLeader
  pres (lpo cs) using lx_mod cs
  exact ⟨⟨rfl, rfl, rfl, rfl, rfl, rfl, rfl, rfl, rfl, rfl, rfl, rfl, rfl, id, rfl⟩, rfl⟩
theorem lx_refusedResp (r : Resp) : Pres Q (refusedResp r) := by
  unfold refusedResp
  pres (lpo cs) using lx_modPeer cs
  all_goals exact ⟨rfl, rfl⟩
theorem lx_rpcResult (r : PeerRef) (ty : MsgType) (ok : Bool) : Pres Q (rpcResult r ty ok) := by
  unfold rpcResult
  pres (lpo cs) using lx_modPeer cs
  all_goals exact ⟨rfl, rfl⟩
theorem lx_rearm : Pres Q rearm := by
  unfold rearm
  pres (lpo cs) using lx_restart cs
theorem lx_handlePrevoteReq (r : Req) : Pres Q (handlePrevoteReq r) := by
  unfold handlePrevoteReq
  pres (lpo cs) using lx_die cs
theorem lx_askPrevote (k : Int) : Pres Q (askVote .prevoteReq k) := by
  unfold askVote
  pres (lpo cs) using lx_termForLog cs, lx_emit cs
  exact ⟨rfl, ⟨.inr (.inr rfl), by simp⟩⟩
end

end Cs.Raft
