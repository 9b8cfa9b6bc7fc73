import Verif.Raft.Offsets
import Verif.Raft.PropsRead
import Verif.Raft.PropsLeader
import Verif.Raft.Play

/-!
# C121: a snapshot that is applied has been sent as a whole

A leader sends a snapshot in blocks. The answer to a block names the offset of the next one.
-/

namespace Cs.Raft
open Cs

/-! ## Specification -/

/-- The block `q` has been sent to server `j`. -/
def BlockSent (fx : List Eff) (j : Int) (q : SnpSync) : Prop := ∃ r, .send r ∈ fx ∧ r.dst = j ∧ r.sync = some q

/-- Histories in which the answers to snapshot blocks are true: an answer for server `j` names the end of a block that has been sent to `j`
before. (`Input.acks`: it comes from `j`, or it answers a request to a server that joins.) -/
inductive HistTrue (c : Setup) (j : Int) (n : Node) : List Input → List Eff → Node → Prop
  | nil : HistTrue c j n [] [] n
  | step {n1 n2 : Node} {xs : List Input} {fx es : List Eff} {x : Option Input} : HistTrue c j n xs fx n1 →
      (∀ y o, x = some y → y.acks j o → ∃ q, BlockSent fx j q ∧ q.offset + q.data.length = o) →
      n1.Step c x es n2 → HistTrue c j n (xs ++ x.toList) (fx ++ es) n2

theorem HistTrue.hist {c : Setup} {j : Int} {n n' : Node} {xs : List Input} {fx : List Eff} (h : HistTrue c j n xs fx n') :
    Hist c n xs fx n' := by
  induction h with
  | nil => exact .nil
  | step _ _ hs ih => exact .step ih hs

/-- Histories in which the answers to snapshot blocks are true and are about the snapshot that is being sent: whenever an answer is handled,
it names the end of a block that has been sent before, to the same server and of the snapshot that is now being sent to it. -/
inductive HistApt (c : Setup) (n : Node) : List Input → List Eff → Node → Prop
  | nil : HistApt c n [] [] n
  | step {n1 n2 : Node} {xs : List Input} {fx es : List Eff} {x : Option Input} : HistApt c n xs fx n1 →
      (∀ s y, n1.up = some s → x = some y → y.Fits (fun j snp o => ∃ q, BlockSent fx j q ∧ q.snap = snp ∧ q.offset + q.data.length = o) s) →
      n1.Step c x es n2 → HistApt c n (xs ++ x.toList) (fx ++ es) n2

theorem HistApt.hist {c : Setup} {n n' : Node} {xs : List Input} {fx : List Eff} (h : HistApt c n xs fx n') : Hist c n xs fx n' := by
  induction h with
  | nil => exact .nil
  | step _ _ hs ih => exact .step ih hs

/-! ## One step -/

theorem fits_of_acks {A : Int → Nat → Prop} {x : Input} (h : ∀ j o, x.acks j o → A j o) (s : Srv) : x.Fits (fun j _ o => A j o) s := by
  cases x with
  | peerResp ty r =>
    intro h1 h2 p _ _ hp _
    have hi : p.id = r.src := by simpa using List.find?_some (show s.peers.find? (·.id == r.src) = some p from hp)
    exact h _ _ ⟨h1, h2, hi.symm, rfl⟩
  | extResp p ty r => exact fun h1 h2 _ _ _ _ _ => h _ _ ⟨h1, h2, rfl⟩
  | _ => trivial

/-- All transfers of a running server are at offsets for which `A` holds. -/
def Node.At (A : Int → Snap → Nat → Prop) (n : Node) : Prop := ∀ s, n.up = some s → s.At A

theorem Srv.At.mono {A B : Int → Snap → Nat → Prop} (hab : ∀ j snp o, A j snp o → B j snp o) {s : Srv} (h : s.At A) : s.At B :=
  ⟨fun p hp a b hc => (h.peers p hp a b hc).imp (fun h => h) (hab _ _ _), fun p hp a b hc => (h.joinee p hp a b hc).imp (fun h => h) (hab _ _ _)⟩

theorem boot_at (A : Int → Snap → Nat → Prop) (id : Int) (pr : Params) (env : Env) (d : Disk) : (boot id pr env d).At A := by
  refine ⟨?_, fun p hp => (by cases hp)⟩
  have key : ∀ (cs : List SrvCfg) (ps : List Peer), (∀ p ∈ ps, p.snpCtx = none) → ∀ p ∈ cs.foldl (bootPeer id pr) ps, p.snpCtx = none := by
    intro cs
    induction cs with
    | nil => exact fun ps h => h
    | cons c cs ih =>
      intro ps h
      refine ih _ fun p hp => ?_
      unfold bootPeer at hp
      split at hp
      · exact h p hp
      · rcases List.mem_append.1 hp with hp | hp
        · exact h p hp
        · rw [List.mem_singleton.1 hp]
  intro p hp a b hc
  rw [key d.config.servers [] (fun _ h => (by cases h)) p hp] at hc
  cases hc

theorem Node.Step.at {A : Int → Snap → Nat → Prop} {c : Setup} {n n' : Node} {x : Option Input} {es : List Eff} (hs : n.Step c x es n')
    (hn : n.At A) (hx : ∀ r, x = some (.retry r) → r.sync = none) (ha : ∀ s y, n.up = some s → x = some y → y.Fits A s) :
    n'.At A ∧ ∀ r, .send r ∈ es → r.At A := by
  have key : ∀ (s : Srv) (i : Input), n.up = some s → x = some i →
      (i.run { s with trace := [] }).2.At A ∧ ∀ r, .send r ∈ (i.run { s with trace := [] }).2.trace → r.At A := by
    intro s i h1 h2
    obtain ⟨es, b2, b3⟩ := oa_run (A := A) (x := i) (fun r hr => at_none (hx r (by rw [h2, hr]))) { s with trace := [] }
      (show i.Fits A { s with trace := [] } from (by have := ha s i h1 h2; cases i <;> exact this))
    obtain ⟨b4, b5⟩ := b3 ⟨(hn s h1).peers, (hn s h1).joinee⟩
    refine ⟨b4, fun r hr => ?_⟩
    rw [b2] at hr
    exact b5 r hr
  cases hs with
  | run hr =>
    have := key _ _ rfl rfl
    rw [hr] at this
    exact ⟨fun s hs => by cases hs; exact this.1, this.2⟩
  | survive hr =>
    have := key _ _ rfl rfl
    rw [hr] at this
    exact ⟨fun s hs => by cases hs; exact this.1, this.2⟩
  | crash hp => exact ⟨fun s hs => (by cases hs), fun r hr => (key _ _ rfl rfl).2 r (hp.subset hr)⟩
  | boot => exact ⟨fun s hs => by cases hs; exact boot_at _ _ _ _ _, fun _ h => (by cases h)⟩

/-! ## C121 -/

/-- Whatever happens to a server: a block that does not start at offset 0 is sent only if an answer that names its offset has been
handled before, an answer of the same server, or one to a request to a server that joins. (This holds for every history, so also for the
part of it that ends with the request. Requests that are sent again are invitations and packs, and have no block.) -/
theorem block_follows_answer {c : Setup} {n n' : Node} {xs : List Input} {fx : List Eff} (h : Hist c n xs fx n') (hn : n.up = none)
    (hx : ∀ r, .retry r ∈ xs → r.sync = none) {j : Int} {q : SnpSync} (hq : BlockSent fx j q) :
    q.offset = 0 ∨ ∃ x ∈ xs, x.acks j q.offset := by
  have key : n'.At (fun j _ o => ∃ x ∈ xs, x.acks j o) ∧ ∀ r, .send r ∈ fx → r.At (fun j _ o => ∃ x ∈ xs, x.acks j o) := by
    clear hq
    induction h with
    | nil => exact ⟨fun s hs => (by rw [hn] at hs; cases hs), fun _ h => (by cases h)⟩
    | @step n1 n2 xs fx es x h1 hs ih =>
      obtain ⟨a1, a2⟩ := ih fun r hr => hx r (List.mem_append_left _ hr)
      have up : ∀ (j : Int) (o : Nat), (∃ x ∈ xs, x.acks j o) → ∃ y ∈ xs ++ x.toList, y.acks j o :=
        fun j o ⟨y, h1, h2⟩ => ⟨y, List.mem_append_left _ h1, h2⟩
      obtain ⟨b1, b2⟩ := hs.at (A := fun j _ o => ∃ y ∈ xs ++ x.toList, y.acks j o) (fun s hs => (a1 s hs).mono fun j _ o => up j o)
        (fun r hr => hx r (by rw [hr]; simp)) (fun s y _ hy => fits_of_acks (fun j o ho => ⟨y, by rw [hy]; simp, ho⟩) s)
      refine ⟨b1, fun r hr => (List.mem_append.1 hr).elim (fun hr q hq => (a2 r hr q hq).imp (fun h => h) (up _ _)) (b2 r)⟩
  obtain ⟨r, h1, h2, h3⟩ := hq
  subst h2
  exact key.2 r h1 q h3

/-- The bytes before `o` have been sent to `j`. -/
def Covered (fx : List Eff) (j : Int) (o : Nat) : Prop := ∀ b < o, ∃ q, BlockSent fx j q ∧ q.offset ≤ b ∧ b < q.offset + q.data.length

theorem BlockSent.mono {fx es : List Eff} {j : Int} {q : SnpSync} (h : BlockSent fx j q) : BlockSent (fx ++ es) j q :=
  let ⟨r, h1, h2⟩ := h; ⟨r, List.mem_append_left _ h1, h2⟩
theorem Covered.mono {fx es : List Eff} {j : Int} {o : Nat} (h : Covered fx j o) : Covered (fx ++ es) j o :=
  fun b hb => let ⟨q, h1, h2⟩ := h b hb; ⟨q, h1.mono, h2⟩

theorem HistTrue.covered {c : Setup} {j : Int} {n n' : Node} {xs : List Input} {fx : List Eff} (h : HistTrue c j n xs fx n') (hn : n.up = none)
    (hx : ∀ r, .retry r ∈ xs → r.sync = none) :
    n'.At (fun k _ o => k = j → Covered fx j o) ∧ ∀ q, BlockSent fx j q → Covered fx j q.offset := by
  induction h with
  | nil => exact ⟨fun s hs => (by rw [hn] at hs; cases hs), fun q ⟨_, h, _⟩ => (by cases h)⟩
  | @step n1 n2 xs fx es x h1 ht hs ih =>
    obtain ⟨a1, a2⟩ := ih fun r hr => hx r (List.mem_append_left _ hr)
    obtain ⟨b1, b2⟩ := hs.at (A := fun k _ o => k = j → Covered fx j o) a1 (fun r hr => hx r (by rw [hr]; simp)) (by
      intro s y _ hy
      refine fits_of_acks (A := fun k o => k = j → Covered fx j o) ?_ s
      rintro k o ho rfl
      obtain ⟨q, h2, h3⟩ := ht y o hy ho
      intro b hb
      by_cases c : b < q.offset
      · exact a2 q h2 b c
      · exact ⟨q, h2, by omega, by omega⟩)
    refine ⟨fun s hs => (b1 s hs).mono fun k _ o h hk => (h hk).mono, ?_⟩
    rintro q ⟨r, h2, h3, h4⟩
    rcases List.mem_append.1 h2 with h2 | h2
    · exact (a2 q ⟨r, h2, h3, h4⟩).mono
    · rcases b2 r h2 q h4 with h | h
      · rw [h]; exact fun b hb => (by cases hb)
      · exact (h h3).mono

/-- C121, if a server `j` is sent blocks of one snapshot only, and its answers are true: when the last block has been sent, then all
bytes of the snapshot have been. (For state machines that can read their snapshots, see C104.)

Missing: a second snapshot, for which it is false: `late_answer_skips_blocks`. See `whole_snapshots_sent_partial`. -/
theorem whole_snapshot_sent_partial {c : Setup} {j : Int} {n n' : Node} {xs : List Input} {fx : List Eff} (h : HistTrue c j n xs fx n')
    (hn : n.up = none) (he : c.env.Proper) (hx : ∀ r, .retry r ∈ xs → r.sync = none)
    (one : ∀ q q', BlockSent fx j q → BlockSent fx j q' → q'.snap = q.snap) {q : SnpSync} (hq : BlockSent fx j q) (hd : q.done = true) :
    ∀ b < q.snap.size, ∃ q', BlockSent fx j q' ∧ q'.snap = q.snap ∧ q'.offset ≤ b ∧ b < q'.offset + q'.data.length := by
  intro b hb
  have hr : q.snap.size ≤ q.offset + q.data.length := by
    obtain ⟨r, h1, _, h3⟩ := hq
    obtain ⟨_, _, _, _, h4⟩ := blocks_read_partial h.hist hn he (fun r hr q hq => by rw [hx r hr] at hq; cases hq) r h1 q h3
    exact h4.1 hd
  by_cases hc : b < q.offset
  · obtain ⟨q', h1, h2⟩ := (h.covered hn hx).2 q hq b hc
    exact ⟨q', h1, one q q' hq h1, h2⟩
  · exact ⟨q, hq, rfl, by omega, by omega⟩

/-- The bytes of `snp` before `o` have been sent to `j`. -/
def CoveredOf (fx : List Eff) (j : Int) (snp : Snap) (o : Nat) : Prop :=
  ∀ b < o, ∃ q, BlockSent fx j q ∧ q.snap = snp ∧ q.offset ≤ b ∧ b < q.offset + q.data.length

theorem CoveredOf.mono {fx es : List Eff} {j : Int} {snp : Snap} {o : Nat} (h : CoveredOf fx j snp o) : CoveredOf (fx ++ es) j snp o :=
  fun b hb => let ⟨q, h1, h2⟩ := h b hb; ⟨q, h1.mono, h2⟩

theorem HistApt.covered {c : Setup} {n n' : Node} {xs : List Input} {fx : List Eff} (h : HistApt c n xs fx n') (hn : n.up = none)
    (hx : ∀ r, .retry r ∈ xs → r.sync = none) :
    n'.At (CoveredOf fx) ∧ ∀ j q, BlockSent fx j q → CoveredOf fx j q.snap q.offset := by
  induction h with
  | nil => exact ⟨fun s hs => (by rw [hn] at hs; cases hs), fun j q ⟨_, h, _⟩ => (by cases h)⟩
  | @step n1 n2 xs fx es x h1 ht hs ih =>
    obtain ⟨a1, a2⟩ := ih fun r hr => hx r (List.mem_append_left _ hr)
    have key : ∀ j snp o, (∃ q, BlockSent fx j q ∧ q.snap = snp ∧ q.offset + q.data.length = o) → CoveredOf fx j snp o := by
      rintro j snp o ⟨q, h2, rfl, h3⟩ b hb
      by_cases c : b < q.offset
      · exact a2 j q h2 b c
      · exact ⟨q, h2, rfl, by omega, by omega⟩
    obtain ⟨b1, b2⟩ := hs.at (A := CoveredOf fx) a1 (fun r hr => hx r (by rw [hr]; simp)) (by
      intro s y hu hy
      have := ht s y hu hy
      cases y with
      | peerResp ty r => exact fun h1 h2 p snp off hp hc => key _ _ _ (this h1 h2 p snp off hp hc)
      | extResp p ty r => exact fun h1 h2 p snp off hp hc => key _ _ _ (this h1 h2 p snp off hp hc)
      | _ => trivial)
    refine ⟨fun s hs => (b1 s hs).mono fun k _ o h => h.mono, ?_⟩
    rintro j q ⟨r, h2, h3, h4⟩
    rcases List.mem_append.1 h2 with h2 | h2
    · exact (a2 j q ⟨r, h2, h3, h4⟩).mono
    · rcases b2 r h2 q h4 with h | h
      · rw [h]; exact fun b hb => (by cases hb)
      · exact h3 ▸ h.mono

/-- C121, for any number of snapshots and servers, if no answer is handled that is about an earlier snapshot than the one that is being
sent: when the last block of a snapshot has been sent to a server, then all bytes of this snapshot have been.

Missing: late answers, for which it is false: `late_answer_skips_blocks`. -/
theorem whole_snapshots_sent_partial {c : Setup} {n n' : Node} {xs : List Input} {fx : List Eff} (h : HistApt c n xs fx n')
    (hn : n.up = none) (he : c.env.Proper) (hx : ∀ r, .retry r ∈ xs → r.sync = none)
    {j : Int} {q : SnpSync} (hq : BlockSent fx j q) (hd : q.done = true) :
    ∀ b < q.snap.size, ∃ q', BlockSent fx j q' ∧ q'.snap = q.snap ∧ q'.offset ≤ b ∧ b < q'.offset + q'.data.length := by
  intro b hb
  have hr : q.snap.size ≤ q.offset + q.data.length := by
    obtain ⟨r, h1, _, h3⟩ := hq
    obtain ⟨_, _, _, _, h4⟩ := blocks_read_partial h.hist hn he (fun r hr q hq => by rw [hx r hr] at hq; cases hq) r h1 q h3
    exact h4.1 hd
  by_cases hc : b < q.offset
  · exact (h.covered hn hx).2 j q hq b hc
  · exact ⟨q, hq, rfl, by omega, by omega⟩

/-! ## Concrete histories -/

/-- The blocks that have been sent to `j`. -/
def blocksTo (fx : List Eff) (j : Int) : List SnpSync :=
  fx.filterMap fun e => match e with
    | .send r => if r.dst = j then r.sync else none
    | _ => none

theorem blockSent_iff {fx : List Eff} {j : Int} {q : SnpSync} : BlockSent fx j q ↔ q ∈ blocksTo fx j := by
  unfold blocksTo
  rw [List.mem_filterMap]
  constructor
  · rintro ⟨r, h1, h2, h3⟩
    exact ⟨.send r, h1, by simp [h2, h3]⟩
  · rintro ⟨e, h1, h2⟩
    cases e with
    | send r =>
      simp only [] at h2
      split at h2
      · next h => exact ⟨r, h1, h, h2⟩
      · cases h2
    | _ => cases h2

/-- The offset that an input names for `j`. -/
def Input.ack? (j : Int) : Input → Option Nat
  | .peerResp _ r => if r.type = .snpResp ∧ r.accepted = true ∧ r.src = j then some r.nextIdx else none
  | .extResp _ _ r => if r.type = .snpResp ∧ r.accepted = true then some r.nextIdx else none
  | _ => none

theorem acks_ack {j : Int} {o : Nat} {x : Input} (h : x.acks j o) : x.ack? j = some o := by
  cases x with
  | peerResp ty r => exact (if_pos ⟨h.1, h.2.1, h.2.2.1⟩).trans (congrArg some h.2.2.2)
  | extResp p ty r => exact (if_pos ⟨h.1, h.2.1⟩).trans (congrArg some h.2.2)
  | _ => cases h

/-- Run a script, and check that the answers for `j` are true. -/
def Node.playTrue (c : Setup) (j : Int) (n : Node) (fx : List Eff) : List Move → Option (Node × List Eff)
  | [] => some (n, fx)
  | a :: as =>
    if a.input.all (fun x => match x.ack? j with
        | some o => (blocksTo fx j).any fun q => decide (q.offset + q.data.length = o)
        | none => true) = true then
      match n.act c a with
      | some (n', es) => n'.playTrue c j (fx ++ es) as
      | none => none
    else none

theorem Node.playTrue_hist {c : Setup} {j : Int} {n0 : Node} : ∀ {as : List Move} {n n' : Node} {xs : List Input} {fx fx' : List Eff},
    HistTrue c j n0 xs fx n → n.playTrue c j fx as = some (n', fx') → HistTrue c j n0 (xs ++ as.flatMap Move.input) fx' n'
  | [], _, _, _, _, _, h, hp => by cases hp; simpa using h
  | a :: as, n, n', xs, fx, fx', h, hp => by
    unfold Node.playTrue at hp
    split at hp
    · next hc =>
      rcases ha : n.act c a with _ | ⟨n1, es⟩
      · rw [ha] at hp; cases hp
      · rw [ha] at hp
        obtain ⟨x, hx, hs⟩ := Node.act_step ha
        have := Node.playTrue_hist (.step h (fun y o hy ho => by
          have h1 := List.all_eq_true.1 hc y (by rw [← hx, hy]; simp)
          rw [acks_ack ho] at h1
          obtain ⟨q, h2, h3⟩ := List.any_eq_true.1 h1
          exact ⟨q, blockSent_iff.2 h2, of_decide_eq_true h3⟩) hs) hp
        rw [hx] at this
        simpa using this
    · cases hp

/-- Run a script, and check its result. -/
def Node.checkTrue (c : Setup) (j : Int) (n : Node) (as : List Move) (P : Node → List Eff → Bool) : Bool :=
  match n.playTrue c j [] as with
  | some (n', fx) => P n' fx
  | none => false

theorem Node.witnessTrue {c : Setup} {j : Int} {n : Node} (as : List Move) (P : Node → List Eff → Bool) (h : n.checkTrue c j as P = true) :
    ∃ n' fx, HistTrue c j n (as.flatMap Move.input) fx n' ∧ P n' fx = true := by
  unfold Node.checkTrue at h
  rcases hp : n.playTrue c j [] as with _ | ⟨n', fx⟩
  · rw [hp] at h; cases h
  · rw [hp] at h
    exact ⟨n', fx, by simpa using Node.playTrue_hist HistTrue.nil hp, h⟩

/-- A server that has a snapshot of ten bytes when it is started. -/
def holeNode : Node := ⟨{ term := 5, config := conf3, log := tenLeader.log, applied := 10, snap := some tenSnap }, none⟩
/-- It sends blocks of four bytes. -/
def holeSetup : Setup := ⟨1, { snpBlock := 4 }, Env.plain⟩
/-- The answer of server 3 to an append request: it needs entries from index 3 on. -/
def behind3 (t : Nat) : Input := .peerResp .appendReq { type := .appendResp, term := t, src := 3, dst := 1, nextIdx := 3 }
/-- The answer of server 3 to a block, given in term 6. -/
def got3 (o : Nat) : Input := .peerResp .snpReq { type := .snpResp, term := 6, src := 3, dst := 1, nextIdx := o, accepted := true }

/-- The hypotheses of `block_follows_answer` and `whole_snapshot_sent_partial` can be met: server 1 becomes leader and sends its snapshot to
server 3, in three blocks. -/
example : holeSetup.env.Proper ∧ ∃ xs fx n, HistTrue holeSetup 3 holeNode xs fx n ∧ holeNode.up = none ∧ (∀ r, .retry r ∈ xs → r.sync = none) ∧
    (∀ q q', BlockSent fx 3 q → BlockSent fx 3 q' → q'.snap = q.snap) ∧
    BlockSent fx 3 ⟨tenSnap, 8, [0, 0], true⟩ := by
  refine ⟨⟨fun _ _ n => List.length_replicate, fun _ _ n hn => ⟨Int.natCast_nonneg n, Int.ofNat_lt.2 hn⟩, fun _ _ _ => rfl⟩, ?_⟩
  obtain ⟨n, fx, h, hp⟩ := Node.witnessTrue (c := holeSetup) (j := 3) (n := holeNode)
    [.start, .go .electionTimeout, .go (voteRespOf 2 6 true), .go (behind3 6), .go (got3 4), .go (got3 8)]
    (fun _ fx => decide (blocksTo fx 3 = [⟨tenSnap, 0, [0, 0, 0, 0], false⟩, ⟨tenSnap, 4, [0, 0, 0, 0], false⟩, ⟨tenSnap, 8, [0, 0], true⟩]))
    (by decide +kernel)
  have hb := of_decide_eq_true hp
  refine ⟨_, fx, n, h, rfl, fun r hr => ?_, fun q q' h1 h2 => ?_, blockSent_iff.2 (by rw [hb]; simp)⟩
  · simp [Move.input, voteRespOf, behind3, got3] at hr
  · have key : ∀ q, BlockSent fx 3 q → q.snap = tenSnap := by
      intro q hq
      rw [blockSent_iff, hb] at hq
      simp at hq
      rcases hq with rfl | rfl | rfl <;> rfl
    rw [key q h1, key q' h2]

/-- A later snapshot, also of ten bytes. -/
def newSnap : Snap := ⟨20, 7, ⟨1, 0, conf3.servers⟩, 10⟩
/-- Server 2, the leader of term 7, sends it to server 1. -/
def newSnapReq : Req :=
  { type := .snpReq, term := 7, src := 2, dst := 1, lastTerm := 7, lastIdx := 20, commitIdx := 20, entries := [⟨7, .snpSync⟩],
    sync := some ⟨newSnap, 0, List.replicate 10 0, true⟩ }
/-- Server 1 leads in term 6, and sends two blocks of its snapshot to server 3. It receives the later snapshot in term 7, and leads again in
term 8. The answer of server 3 to the second block arrives after the first block of the later snapshot has been sent. -/
def holeMoves : List Move :=
  [.start, .go .electionTimeout, .go (voteRespOf 2 6 true), .go (behind3 6), .go (got3 4), .go (.req (voteReqOf 2 7 7 30)), .go (.req newSnapReq),
   .go .electionTimeout, .go (voteRespOf 2 8 true), .go (behind3 8), .go (got3 8)]
/-- Server 3. -/
def holeThree : Node := ⟨{ term := 5, config := conf3, log := ⟨1, [⟨1, .app 1⟩, ⟨1, .app 2⟩]⟩ }, none⟩
/-- The append and snapshot requests to server 3, in the order in which they are sent. -/
def reqsTo3 (fx : List Eff) : List Req := fx.filterMap fun e => match e with
  | .send r => if r.dst = 3 ∧ r.type ≠ .voteReq then some r else none
  | _ => none
/-- What happens to server 3: it is started and gets these requests. -/
def threeMoves (as : List Move) : List Move := match holeNode.play holeSetup [] as with
  | some r => .start :: (reqsTo3 r.2).map fun r => .go (.req r)
  | none => []

/-- The answers of server 3 among the inputs. -/
def fromThree (xs : List Input) : List Resp := xs.filterMap fun x => match x with
  | .peerResp _ r => if r.src = 3 then some r else none
  | _ => none
/-- The requests among the inputs. -/
def reqsIn (xs : List Input) : List Req := xs.filterMap fun x => match x with
  | .req r => some r
  | _ => none

/-- C121 fails. Server 1 sends two snapshots to server 3, one in term 6 and one in term 8. All requests that server 3 gets have been sent by
server 1, in this order, and all answers of server 3 that server 1 gets have been given. An answer of term 6 arrives late and is taken for
one about the second snapshot: server 1 goes on with the last block of it. The bytes 4 to 7 are never sent, and the state machine of server
3 is told to apply the snapshot. -/
theorem late_answer_skips_blocks : ∃ xs fx n xs3 fx3 n3, HistTrue holeSetup 3 holeNode xs fx n ∧ Hist ⟨3, {}, Env.plain⟩ holeThree xs3 fx3 n3 ∧
    (∀ r ∈ reqsIn xs3, .send r ∈ fx) ∧ (∀ r ∈ fromThree xs, .reply r ∈ fx3) ∧
    .applySnp newSnap ∈ fx3 ∧
    (∀ q, BlockSent fx 3 q → q.snap = newSnap → ∀ b, 4 ≤ b → b < 8 → ¬ (q.offset ≤ b ∧ b < q.offset + q.data.length)) ∧
    arrivals fx3 = [.saveSnpData tenSnap 0 [0, 0, 0, 0], .saveSnpData tenSnap 4 [0, 0, 0, 0], .saveSnpData newSnap 0 [0, 0, 0, 0],
      .saveSnpData newSnap 8 [0, 0], .applySnp newSnap] := by
  obtain ⟨n3, fx3, h3, hp3⟩ := Node.witness (c := ⟨3, {}, Env.plain⟩) (n := holeThree) (threeMoves holeMoves)
    (fun _ fx3 => (fromThree (holeMoves.flatMap Move.input)).all (fun r => decide (.reply r ∈ fx3)) &&
      decide (arrivals fx3 = [.saveSnpData tenSnap 0 [0, 0, 0, 0], .saveSnpData tenSnap 4 [0, 0, 0, 0], .saveSnpData newSnap 0 [0, 0, 0, 0],
        .saveSnpData newSnap 8 [0, 0], .applySnp newSnap]))
    (by decide +kernel)
  obtain ⟨n, fx, h, hp⟩ := Node.witnessTrue (c := holeSetup) (j := 3) (n := holeNode) holeMoves
    (fun _ fx => (reqsIn ((threeMoves holeMoves).flatMap Move.input)).all (fun r => decide (.send r ∈ fx)) &&
      decide (blocksTo fx 3 = [⟨tenSnap, 0, [0, 0, 0, 0], false⟩, ⟨tenSnap, 4, [0, 0, 0, 0], false⟩, ⟨newSnap, 0, [0, 0, 0, 0], false⟩,
        ⟨newSnap, 8, [0, 0], true⟩]))
    (by decide +kernel)
  obtain ⟨a1, a2⟩ := (Bool.and_eq_true _ _).mp hp3
  obtain ⟨b1, b2⟩ := (Bool.and_eq_true _ _).mp hp
  have a2 := of_decide_eq_true a2
  have b2 := of_decide_eq_true b2
  refine ⟨_, fx, n, _, fx3, n3, h, h3, fun r hr => of_decide_eq_true (List.all_eq_true.1 b1 r hr),
    fun r hr => of_decide_eq_true (List.all_eq_true.1 a1 r hr), ?_, ?_, a2⟩
  · have : Eff.applySnp newSnap ∈ arrivals fx3 := by rw [a2]; simp
    exact (List.mem_filter.1 this).1
  · intro q hq hs b h4 h8
    rw [blockSent_iff, b2] at hq
    simp only [List.mem_cons, List.not_mem_nil, or_false] at hq
    rcases hq with rfl | rfl | rfl | rfl
    · cases hs
    · cases hs
    · simp; omega
    · simp; omega

/-- The block that an answer must be about has been sent. -/
def aptPeer (fx : List Eff) (r : Resp) (op : Option Peer) : Bool :=
  match r.type, r.accepted, op with
  | .snpResp, true, some p => p.snpCtx.all fun t => (blocksTo fx p.id).any fun q => decide (q.snap = t.1 ∧ q.offset + q.data.length = r.nextIdx)
  | _, _, _ => true

def Input.apt (fx : List Eff) (s : Srv) : Input → Bool
  | .peerResp _ r => aptPeer fx r (s.peer (.member r.src))
  | .extResp _ _ r => aptPeer fx r (s.peer .joining)
  | _ => true

theorem apt_fits {fx : List Eff} {s : Srv} {x : Input} (h : x.apt fx s = true) :
    x.Fits (fun j snp o => ∃ q, BlockSent fx j q ∧ q.snap = snp ∧ q.offset + q.data.length = o) s := by
  have key : ∀ (r : Resp) (p : Peer) (snp : Snap) (off : Nat), r.type = .snpResp → r.accepted = true → p.snpCtx = some (snp, off) →
      aptPeer fx r (some p) = true → ∃ q, BlockSent fx p.id q ∧ q.snap = snp ∧ q.offset + q.data.length = r.nextIdx := by
    intro r p snp off h1 h2 h3 h4
    unfold aptPeer at h4
    rw [h1, h2] at h4
    simp only [h3, Option.all_some] at h4
    obtain ⟨q, h5, h6⟩ := List.any_eq_true.1 h4
    exact ⟨q, blockSent_iff.2 h5, of_decide_eq_true h6⟩
  cases x with
  | peerResp ty r =>
    intro h1 h2 p snp off hp hc
    have h : aptPeer fx r (s.peer (.member r.src)) = true := h
    rw [hp] at h
    exact key r p snp off h1 h2 hc h
  | extResp p ty r =>
    intro h1 h2 p snp off hp hc
    have h : aptPeer fx r (s.peer .joining) = true := h
    rw [hp] at h
    exact key r p snp off h1 h2 hc h
  | _ => trivial

/-- Run a script, and check that the answers are about the snapshots that are being sent. -/
def Node.playApt (c : Setup) (n : Node) (fx : List Eff) : List Move → Option (Node × List Eff)
  | [] => some (n, fx)
  | a :: as =>
    if n.up.all (fun s => a.input.all fun x => x.apt fx s) = true then
      match n.act c a with
      | some (n', es) => n'.playApt c (fx ++ es) as
      | none => none
    else none

theorem Node.playApt_hist {c : Setup} {n0 : Node} : ∀ {as : List Move} {n n' : Node} {xs : List Input} {fx fx' : List Eff},
    HistApt c n0 xs fx n → n.playApt c fx as = some (n', fx') → HistApt c n0 (xs ++ as.flatMap Move.input) fx' n'
  | [], _, _, _, _, _, h, hp => by cases hp; simpa using h
  | a :: as, n, n', xs, fx, fx', h, hp => by
    unfold Node.playApt at hp
    split at hp
    · next hc =>
      rcases ha : n.act c a with _ | ⟨n1, es⟩
      · rw [ha] at hp; cases hp
      · rw [ha] at hp
        obtain ⟨x, hx, hs⟩ := Node.act_step ha
        have := Node.playApt_hist (.step h (fun s y hu hy => by
          rw [hu] at hc
          exact apt_fits (List.all_eq_true.1 hc y (by rw [← hx, hy]; simp))) hs) hp
        rw [hx] at this
        simpa using this
    · cases hp

/-- The answer of server 3 to a block, given in term 8. -/
def later3 (o : Nat) : Input := .peerResp .snpReq { type := .snpResp, term := 8, src := 3, dst := 1, nextIdx := o, accepted := true }
/-- As `holeMoves`, but the late answer gets lost, and the answers to the blocks of the second snapshot arrive. -/
def aptMoves : List Move :=
  [.start, .go .electionTimeout, .go (voteRespOf 2 6 true), .go (behind3 6), .go (got3 4), .go (.req (voteReqOf 2 7 7 30)), .go (.req newSnapReq),
   .go .electionTimeout, .go (voteRespOf 2 8 true), .go (behind3 8), .go (later3 4), .go (later3 8)]

/-- The hypotheses of `whole_snapshots_sent_partial` can be met: of the first snapshot two blocks are sent, of the second one all three. -/
example : ∃ xs fx n, HistApt holeSetup holeNode xs fx n ∧ holeNode.up = none ∧ (∀ r, .retry r ∈ xs → r.sync = none) ∧
    BlockSent fx 3 ⟨tenSnap, 4, [0, 0, 0, 0], false⟩ ∧ BlockSent fx 3 ⟨newSnap, 8, [0, 0], true⟩ := by
  have hk : (match holeNode.playApt holeSetup [] aptMoves with
      | some (_, fx) => decide (blocksTo fx 3 = [⟨tenSnap, 0, [0, 0, 0, 0], false⟩, ⟨tenSnap, 4, [0, 0, 0, 0], false⟩,
          ⟨newSnap, 0, [0, 0, 0, 0], false⟩, ⟨newSnap, 4, [0, 0, 0, 0], false⟩, ⟨newSnap, 8, [0, 0], true⟩])
      | none => false) = true := by decide +kernel
  rcases hp : holeNode.playApt holeSetup [] aptMoves with _ | ⟨n, fx⟩
  · rw [hp] at hk; cases hk
  · rw [hp] at hk
    have hb := of_decide_eq_true hk
    refine ⟨_, fx, n, Node.playApt_hist .nil hp, rfl, fun r hr => ?_, blockSent_iff.2 (by rw [hb]; simp), blockSent_iff.2 (by rw [hb]; simp)⟩
    simp [Move.input, aptMoves, voteRespOf, behind3, got3, later3] at hr

end Cs.Raft
