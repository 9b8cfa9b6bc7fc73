import Verif.Raft.Named
import Verif.Raft.Forward
import Verif.Raft.PropsForward
import Verif.Raft.PropsVote

/-!
# Addresses of members (C72, C73)

An address reaches a server in descriptions of servers: in its saved configuration, in configuration entries, in snapshots, in
requests to add a server. `x.Named P`: each description in `x` satisfies `P` (`Verif/Raft/Named.lean`).
-/

namespace Cs.Raft
open Cs

/-- A fresh node all of whose members satisfy `P`. -/
theorem fresh_named {P : SrvCfg → Prop} {cfg : Config} (h : ∀ m ∈ cfg.servers, P m) : (Node.fresh cfg).Named P :=
  ⟨⟨h, fun _ h => (by cases h), fun _ h => (by cases h)⟩, fun _ h => (by cases h)⟩

/-! ## C72: requests to a member go to its configured address -/

/-- C72, partial. In all histories in which the descriptions that reach a server give each id one address only: whatever the server
sends to a member of its configuration goes to the address this member has in the configuration. What is missing: a peer keeps the
address it was made with, see `sent_to_old_address`. -/
theorem sent_to_configured_address_partial (legal : Nat → Bool) (address : Int → Nat) {c : Setup} {cfg : Config}
    {xs : List Input} {fx : List Eff} {n : Node} {s : Srv} (h : Hist c (Node.fresh cfg) xs fx n) (hu : n.up = some s)
    (hc : ∀ m ∈ cfg.servers, m.endpoint = address m.id) (hx : ∀ x ∈ xs, x.Named fun m => m.endpoint = address m.id)
    {p : Peer} {m : SrvCfg} (hp : p ∈ s.peers ∨ s.srvToJoin = some p) (hm : m ∈ s.config.servers) (hi : m.id = p.id)
    (hl : legal m.endpoint = true) (r : Req) : p.sendReq legal r = .ok (.sent m.endpoint r) := by
  have hs := (h.named (fresh_named hc) hx).1.up s hu
  have h1 : p.cfg.endpoint = address p.id := hp.elim (fun h => (hs.peers p h).cfg) fun h => (hs.joining p h).cfg
  have h2 : m.endpoint = address m.id := hs.config m hm
  have h3 : p.cfg.endpoint = m.endpoint := by rw [h1, h2, hi]
  unfold Peer.sendReq client
  rw [h3, if_pos hl]

/-- The last block of a snapshot up to index 10. Meanwhile server 2 has been removed and added again with address 22. -/
def movedSnapshot : Req :=
  { type := .snpReq, term := 5, src := 3, dst := 1, lastTerm := 5, lastIdx := 10, commitIdx := 10,
    entries := [⟨5, .snpSync⟩], sync := some ⟨⟨10, 5, ⟨9, 8, [⟨1, 11⟩, ⟨3, 13⟩, ⟨2, 22⟩]⟩, 3⟩, 0, [1, 2, 3], true⟩ }

/-- Not C72. Server 1 gets a snapshot, and then asks server 2 for a vote at an address that is not the one server 2 has in the
configuration. -/
theorem sent_to_old_address : ∃ (n : Node) (fx : List Eff) (s : Srv) (p : Peer) (m : SrvCfg) (r : Req),
    Hist node1 (Node.fresh members123) [.req movedSnapshot, .electionTimeout] fx n ∧ n.up = some s ∧ p ∈ s.peers ∧
    m ∈ s.config.servers ∧ m.id = p.id ∧ Eff.send r ∈ fx ∧ r.dst = m.id ∧ r.type = .voteReq ∧
    ∃ a, p.sendReq (fun _ => true) r = .ok (.sent a r) ∧ a ≠ m.endpoint := by
  obtain ⟨n, fx, h, hp⟩ := Node.witness (c := node1) (n := Node.fresh members123)
    [.start, .go (.req movedSnapshot), .go .electionTimeout]
    (fun n fx => match n.up with
      | some s => s.peers.any fun p => s.config.servers.any fun m => fx.any fun e => match e with
        | .send r => decide (m.id = p.id ∧ r.dst = m.id ∧ r.type = .voteReq ∧
          p.sendReq (fun _ => true) r = .ok (.sent p.cfg.endpoint r) ∧ p.cfg.endpoint ≠ m.endpoint)
        | _ => false
      | none => false)
    (by decide +kernel)
  rcases hu : n.up with _ | s
  · rw [hu] at hp; cases hp
  · rw [hu] at hp
    obtain ⟨p, h1, hp⟩ := List.any_eq_true.1 hp
    obtain ⟨m, h2, hp⟩ := List.any_eq_true.1 hp
    obtain ⟨e, h3, hp⟩ := List.any_eq_true.1 hp
    cases e with
    | send r =>
      obtain ⟨a1, a2, a3, a4, a5⟩ := of_decide_eq_true hp
      exact ⟨n, fx, s, p, m, r, h, hu, h1, h2, a1, h3, a2, a3, _, a4, a5⟩
    | _ => cases hp

/-- Server 1 elects itself with the addresses it began with. -/
example : ∃ (n : Node) (fx : List Eff) (s : Srv), Hist node1 (Node.fresh members123) [.electionTimeout] fx n ∧ n.up = some s ∧
    s.peers.length = 2 ∧ (∀ m ∈ members123.servers, m.endpoint = (fun i => (10 + i).toNat) m.id) ∧
    ∀ x ∈ [Input.electionTimeout], x.Named fun m => m.endpoint = (fun i => (10 + i).toNat) m.id := by
  obtain ⟨n, fx, h, hp⟩ := Node.witness (c := node1) (n := Node.fresh members123) [.start, .go .electionTimeout]
    (fun n _ => match n.up with
      | some s => decide (s.peers.length = 2)
      | none => false) (by decide +kernel)
  rcases hu : n.up with _ | s
  · rw [hu] at hp; cases hp
  · rw [hu] at hp
    exact ⟨n, fx, s, h, hu, of_decide_eq_true hp, by decide, fun x hx => by cases List.mem_singleton.1 hx; exact trivial⟩

/-! ## C73: an address that is not legal does no harm -/

/-- C73, partial. In all histories in which the addresses that reach a server are legal, no request it sends ends in a null pointer,
and the addresses it hands on to others are legal. What is missing: nobody checks addresses, see `illegal_address_crashes`. -/
theorem legal_addresses_partial (legal : Nat → Bool) {c : Setup} {cfg : Config} {xs : List Input} {fx : List Eff} {n : Node}
    (h : Hist c (Node.fresh cfg) xs fx n) (hc : ∀ m ∈ cfg.servers, legal m.endpoint = true)
    (hx : ∀ x ∈ xs, x.Named fun m => legal m.endpoint = true) :
    (∀ s, n.up = some s → ∀ p, p ∈ s.peers ∨ s.srvToJoin = some p → ∀ r, ∃ a, p.sendReq legal r = .ok (.sent a r)) ∧
    ∀ r, Eff.send r ∈ fx → r.Named fun m => legal m.endpoint = true := by
  obtain ⟨h1, h2⟩ := h.named (fresh_named hc) hx
  refine ⟨fun s hs p hp r => ⟨p.cfg.endpoint, ?_⟩, fun r hr => (h2 _ hr).2⟩
  have : legal p.cfg.endpoint = true :=
    hp.elim (fun h => ((h1.up s hs).peers p h).cfg) fun h => ((h1.up s hs).joining p h).cfg
  unfold Peer.sendReq client
  rw [if_pos this]

/-- Not C73. The leader of a cluster of one server is asked to add a server whose address, 99, is not legal. It invites this
server through a null pointer. -/
theorem illegal_address_crashes (legal : Nat → Bool) (ha : legal 99 = false) :
    ∃ (n : Node) (fx : List Eff) (s : Srv) (p : Peer) (r : Req),
    Hist node1 (Node.fresh ⟨0, 0, [⟨1, 11⟩]⟩) [.electionTimeout, .apply, .req (userReq .addReq [⟨0, .srv ⟨2, 99⟩⟩])] fx n ∧
    n.up = some s ∧ s.role = .leader ∧ s.srvToJoin = some p ∧ Eff.send r ∈ fx ∧ r.dst = p.id ∧ p.id = 2 ∧
    p.sendReq legal r = .error .ub := by
  obtain ⟨n, fx, h, hp⟩ := Node.witness (c := node1) (n := Node.fresh ⟨0, 0, [⟨1, 11⟩]⟩)
    [.start, .go .electionTimeout, .go .apply, .go (.req (userReq .addReq [⟨0, .srv ⟨2, 99⟩⟩]))]
    (fun n fx => match n.up with
      | some s => match s.srvToJoin with
        | some p => fx.any fun e => match e with
          | .send r => decide (s.role = .leader ∧ r.dst = p.id ∧ p.id = 2 ∧ p.cfg.endpoint = 99)
          | _ => false
        | none => false
      | none => false)
    (by decide +kernel)
  rcases hu : n.up with _ | s
  · rw [hu] at hp; cases hp
  · rw [hu] at hp
    rcases hj : s.srvToJoin with _ | p
    · simp only [hj] at hp; cases hp
    · simp only [hj] at hp
      obtain ⟨e, h3, hp⟩ := List.any_eq_true.1 hp
      cases e with
      | send r =>
        obtain ⟨a1, a2, a3, a4⟩ := of_decide_eq_true hp
        refine ⟨n, fx, s, p, r, h, hu, a1, hj, h3, a2, a3, ?_⟩
        unfold Peer.sendReq client
        rw [a4, if_neg (by rw [ha]; exact Bool.false_ne_true)]
      | _ => cases hp

/-- The same with a legal address meets the hypotheses of `legal_addresses_partial`. -/
example : ∃ (n : Node) (fx : List Eff) (s : Srv), Hist node1 (Node.fresh ⟨0, 0, [⟨1, 11⟩]⟩)
      [.electionTimeout, .apply, .req (userReq .addReq [⟨0, .srv ⟨2, 12⟩⟩])] fx n ∧
    n.up = some s ∧ s.srvToJoin.isSome = true ∧ (∀ m ∈ (⟨0, 0, [⟨1, 11⟩]⟩ : Config).servers, (m.endpoint != 99) = true) ∧
    ∀ x ∈ [Input.electionTimeout, .apply, .req (userReq .addReq [⟨0, .srv ⟨2, 12⟩⟩])], x.Named fun m => (m.endpoint != 99) = true := by
  obtain ⟨n, fx, h, hp⟩ := Node.witness (c := node1) (n := Node.fresh ⟨0, 0, [⟨1, 11⟩]⟩)
    [.start, .go .electionTimeout, .go .apply, .go (.req (userReq .addReq [⟨0, .srv ⟨2, 12⟩⟩]))]
    (fun n _ => match n.up with
      | some s => s.srvToJoin.isSome
      | none => false) (by decide +kernel)
  rcases hu : n.up with _ | s
  · rw [hu] at hp; cases hp
  · rw [hu] at hp
    refine ⟨n, fx, s, h, hu, hp, by decide, fun x hx => ?_⟩
    simp only [List.mem_cons, List.not_mem_nil, or_false] at hx
    rcases hx with rfl | rfl | rfl
    · exact trivial
    · exact trivial
    · refine ⟨fun e he => ?_, fun e he => (by cases he), fun q hq => (by cases hq)⟩
      rw [List.mem_singleton.1 he]
      show ((12 : Nat) != 99) = true
      decide

end Cs.Raft
