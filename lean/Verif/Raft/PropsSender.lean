import Verif.Raft.Sender

/-!
# Append and snapshot requests of a term come from its leader (C113)

`m` is an append or a snapshot request: `isRepl m.type`. `.lead t` is the moment a server takes the lead of term `t` (`become_leader`).
The cluster is in `Verif/Cluster/PropsSender.lean`.
-/

namespace Cs.Raft
open Cs

/-- The answer to a request of a membership change finds the server that has asked still leading. -/
def InTime (s : Srv) (x : Input) : Prop := x.ofChange = true → s.role = .leader

/-- Histories in which a running server in state `s` gets the input `x` only if `P s x`. -/
inductive HistIf (c : Setup) (P : Srv → Input → Prop) (n : Node) : List Input → List Eff → Node → Prop
  | nil : HistIf c P n [] [] n
  | step {n1 n2 : Node} {xs : List Input} {fx es : List Eff} {x : Option Input} : HistIf c P n xs fx n1 →
      (∀ s y, n1.up = some s → x = some y → P s y) → n1.Step c x es n2 → HistIf c P n (xs ++ x.toList) (fx ++ es) n2

/-- C113, for one input. Whatever the server handles, if it sends an append or a snapshot request then it was the leader of the term
of the request before, or it has taken the lead of this term meanwhile and before it sends. -/
theorem only_leader_sends_at_once_partial (s : Srv) (x : Input) (hx : InTime s x) {l : List Eff} {m : Req}
    (hm : l ++ [.send m] <+: (x.run { s with trace := [] }).2.trace) (hr : isRepl m.type) :
    (s.role = .leader ∧ m.term = s.term) ∨ .lead m.term ∈ l := by
  obtain ⟨es, h1, _, h3⟩ := snd_run { s with trace := [] } x hx
  rw [h1] at hm
  exact h3 l m hm hr

/-- A server that leads has taken the lead, and so has the sender of a request. -/
theorem hist_sends {c : Setup} {cfg : Config} {xs : List Input} {fx : List Eff} {n : Node}
    (h : HistIf c InTime (Node.fresh cfg) xs fx n) : (∀ s, n.up = some s → s.role = .leader → .lead s.term ∈ fx) ∧
    ∀ l m, l ++ [.send m] <+: fx → isRepl m.type → .lead m.term ∈ l := by
  induction h with
  | nil => exact ⟨fun s h => (by cases h), fun l m h => absurd (sent_mem h) List.not_mem_nil⟩
  | @step n1 n2 xs fx es x hh hx hs ih =>
    have sent : ∀ {s0 : Srv} {y : Input} {tr : List Eff}, n1.up = some s0 → InTime s0 y → tr <+: (y.run { s0 with trace := [] }).2.trace →
        ∀ l m, l ++ [.send m] <+: fx ++ tr → isRepl m.type → .lead m.term ∈ l := by
      intro s0 y tr hu hy ht l m hm hr
      rcases ends_in hm with h1 | ⟨k, rfl, h1⟩
      · exact ih.2 l m h1 hr
      · rcases only_leader_sends_at_once_partial s0 y hy (h1.trans ht) hr with ⟨h2, h3⟩ | h2
        · exact List.mem_append_left _ (h3 ▸ ih.1 s0 hu h2)
        · exact List.mem_append_right _ h2
    have leads : ∀ {s0 s1 : Srv} {y : Input}, n1.up = some s0 → InTime s0 y → (y.run { s0 with trace := [] }).2 = s1 →
        s1.role = .leader → .lead s1.term ∈ fx ++ s1.trace := by
      intro s0 s1 y hu hy h1 hl
      obtain ⟨es, g1, g2, _⟩ := snd_run { s0 with trace := [] } y hy
      rw [h1] at g1 g2
      rcases g2 hl with ⟨h3, h4⟩ | h3
      · exact List.mem_append_left _ (h4 ▸ ih.1 s0 hu h3)
      · exact List.mem_append_right _ (by rw [g1]; exact h3)
    cases hs with
    | @run d s0 s1 y hr =>
      exact ⟨fun s hu hl => (by cases hu; exact leads rfl (hx s0 y rfl rfl) (by rw [hr]) hl),
        sent rfl (hx s0 y rfl rfl) (by rw [hr]; exact List.prefix_refl _)⟩
    | @survive d s0 s1 y hr =>
      exact ⟨fun s hu hl => (by cases hu; exact leads rfl (hx s0 y rfl rfl) (by rw [hr]) hl),
        sent rfl (hx s0 y rfl rfl) (by rw [hr]; exact List.prefix_refl _)⟩
    | @crash d s0 y tr hr => exact ⟨fun s hu => (by cases hu), sent rfl (hx s0 y rfl rfl) hr⟩
    | boot => exact ⟨fun s hu hl => (by cases hu; cases hl), fun l m hm => ih.2 l m (by rwa [List.append_nil] at hm)⟩

/-- C113: whatever reaches a server, in any order and with crashes and restarts at any time, before it sends an append or a snapshot
request it has taken the lead of the term of the request.
Missing: answers to the requests of a membership change that arrive when the server is not leader any more (`late_answer_sends`). -/
theorem only_leader_sends_partial {c : Setup} {cfg : Config} {xs : List Input} {fx : List Eff} {n : Node}
    (h : HistIf c InTime (Node.fresh cfg) xs fx n) {l : List Eff} {m : Req} (hm : l ++ [.send m] <+: fx) (hr : isRepl m.type) :
    .lead m.term ∈ l := (hist_sends h).2 l m hm hr

/-- All histories without answers to the requests of a membership change are of this kind. -/
theorem Hist.inTime {c : Setup} {n n' : Node} {xs : List Input} {fx : List Eff} (h : Hist c n xs fx n')
    (hx : ∀ x ∈ xs, x.ofChange = false) : HistIf c InTime n xs fx n' := by
  induction h with
  | nil => exact .nil
  | @step n1 n2 xs fx es x hh hs ih =>
    refine .step (ih fun x hm => hx x (List.mem_append_left _ hm)) (fun s y _ hy hc => ?_) hs
    have := hx y (List.mem_append_right _ (by rw [hy]; exact List.mem_singleton.2 rfl))
    rw [this] at hc
    cases hc

/-- The hypotheses are met and a request is sent: a server is elected and sends its first append request. -/
example : ∃ fx n l m, HistIf node1 InTime (Node.fresh conf3) (electScript.flatMap Move.input) fx n ∧ l ++ [.send m] <+: fx ∧
    m.type = .appendReq ∧ m.term = 1 := by
  obtain ⟨n, fx, h, hp⟩ := Node.witness (c := node1) (n := Node.fresh conf3) electScript
    (fun _ fx => fx.any fun e => match e with | .send m => decide (m.type = .appendReq ∧ m.term = 1) | _ => false) (by decide +kernel)
  obtain ⟨e, he, h1⟩ := List.any_eq_true.1 hp
  cases e with
  | send m =>
    obtain ⟨l, r, rfl⟩ := List.append_of_mem he
    exact ⟨_, n, l, m, h.inTime (by decide), ⟨r, by rw [List.append_assoc]; rfl⟩, of_decide_eq_true h1⟩
  | _ => cases h1

/-- Server 1 leads term 1 and asks server 3 to leave. -/
def asksToLeave : List Move := electScript ++ [.go (appendRespOf 2 1 2), .go (.req (rmReqOf 3))]

theorem HistIf.snoc {c : Setup} {P : Srv → Input → Prop} {n n1 n2 : Node} {d : Disk} {s : Srv} {xs : List Input} {fx es : List Eff} {x : Input}
    (h : HistIf c P n xs fx n1) (h1 : n1 = ⟨d, some s⟩) (hx : P s x) (hs : n1.Step c (some x) es n2) :
    HistIf c P n (xs ++ [x]) (fx ++ es) n2 :=
  .step h (fun s' y h2 h3 => (by subst h1; cases h2; cases h3; exact hx)) hs

/-- An answer that comes in time: the removal of server 3 is sent to server 2 in an append request. -/
example : ∃ fx n l m, HistIf node1 InTime (Node.fresh conf3) (asksToLeave.flatMap Move.input ++ [leftOf 3]) fx n ∧
    l ++ [.send m] <+: fx ∧ (leftOf 3).ofChange = true ∧ m.type = .appendReq ∧ m.term = 1 ∧
    m.entries = [⟨1, .conf ⟨2, 1, [⟨1, 1⟩, ⟨2, 2⟩]⟩⟩] := by
  obtain ⟨⟨d, up⟩, fx, h, hp⟩ := Node.witness (c := node1) (n := Node.fresh conf3) asksToLeave
    (fun n fx => match n.up with
      | some s => decide (s.role = .leader) && (match (leftOf 3).run { s with trace := [] } with
        | (.ok _, s') => s'.trace.any fun e => match e with
          | .send m => decide (m.type = .appendReq ∧ m.term = 1 ∧ m.entries = [⟨1, .conf ⟨2, 1, [⟨1, 1⟩, ⟨2, 2⟩]⟩⟩])
          | _ => false
        | _ => false)
      | none => false) (by decide +kernel)
  cases up with
  | none => cases hp
  | some s =>
    have hp := Bool.and_eq_true _ _ ▸ hp
    obtain ⟨h1, h2⟩ := hp
    rcases hr : (leftOf 3).run { s with trace := [] } with ⟨e | u, s'⟩
    · rw [hr] at h2; cases h2
    · rw [hr] at h2
      obtain ⟨e, he, h3⟩ := List.any_eq_true.1 h2
      cases e with
      | send m =>
        obtain ⟨l, r, hlr⟩ := List.append_of_mem he
        refine ⟨_, _, fx ++ l, m, (h.inTime (by decide)).snoc rfl (fun _ => of_decide_eq_true h1) (.run hr), ⟨r, ?_⟩, rfl, of_decide_eq_true h3⟩
        rw [hlr, List.append_assoc, List.append_assoc]
        rfl
      | _ => cases h3

/-- Before server 3 answers, server 2 becomes leader of term 2 and is heard. -/
def lateLeave : List Move := asksToLeave ++ [.go (.req (appendReqOf 2 2 1 1 [] 1)), .go (leftOf 3)]

/-- C113 fails: server 1, which follows server 2, sends an append request of term 2, with the removal of server 3 as an entry of this
term, to server 2; it has never taken the lead of term 2. -/
theorem late_answer_sends : ∃ d s fx m, Hist node1 (Node.fresh conf3) (lateLeave.flatMap Move.input) fx ⟨d, some s⟩ ∧
    s.role = .follower ∧ s.leader = 2 ∧ .send m ∈ fx ∧ m.type = .appendReq ∧ m.term = 2 ∧ m.src = 1 ∧ m.dst = 2 ∧
    m.entries = [⟨2, .conf ⟨2, 1, [⟨1, 1⟩, ⟨2, 2⟩]⟩⟩] ∧ .lead 2 ∉ fx := by
  obtain ⟨⟨d, up⟩, fx, h, hp⟩ := Node.witness (c := node1) (n := Node.fresh conf3) lateLeave
    (fun n fx => match n.up with
      | some s => decide (s.role = .follower ∧ s.leader = 2 ∧ .lead 2 ∉ fx) && fx.any fun e => match e with
          | .send m => decide (m.type = .appendReq ∧ m.term = 2 ∧ m.src = 1 ∧ m.dst = 2 ∧
              m.entries = [⟨2, .conf ⟨2, 1, [⟨1, 1⟩, ⟨2, 2⟩]⟩⟩])
          | _ => false
      | none => false) (by decide +kernel)
  cases up with
  | none => cases hp
  | some s =>
    have hp := Bool.and_eq_true _ _ ▸ hp
    obtain ⟨h1, h2⟩ := hp
    have h1 := of_decide_eq_true h1
    obtain ⟨e, he, h3⟩ := List.any_eq_true.1 h2
    cases e with
    | send m =>
      have h3 := of_decide_eq_true h3
      exact ⟨d, s, fx, m, h, h1.1, h1.2.1, he, h3.1, h3.2.1, h3.2.2.1, h3.2.2.2.1, h3.2.2.2.2, h1.2.2⟩
    | _ => cases h3

end Cs.Raft
