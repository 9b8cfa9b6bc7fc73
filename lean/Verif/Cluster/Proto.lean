import Verif.Raft.Model

/-!
# The protocol underneath the server, and who is elected

`PS` is the part of a server the safety of the cluster depends on. `Act` says under which conditions a server of a cluster
with fixed members may have each effect; `Verif/Cluster/Local.lean` shows that the server of `Verif/Raft/Model.lean` keeps
to it. Here: votes and leaders.
-/

namespace Cs.Raft
open Cs

/-- Term, vote, log, role; `counting` says that the election of the term is not over (`!election_completed_`); `qc` is the
commit index (`quick_commit_idx_`). -/
structure PS where
  term : Nat := 0
  vote : Int := -1
  log : List Entry := []
  role : Role := .follower
  counting : Bool := false
  qc : Nat := 0

/-- Effects of all servers, in order. -/
abbrev History := List (Int × Eff)

/-- Term of the last entry, 0 if there is none. -/
def lastTermOf (l : List Entry) : Nat := match l.getLast? with | some e => e.term | none => 0

/-- The log agrees, by term, with the previous entry and the first `k` entries of an append request. -/
def Agree (l : List Entry) (m : Req) (k : Nat) : Prop :=
  m.lastIdx + k ≤ l.length ∧ (m.lastIdx = 0 ∨ (l[m.lastIdx - 1]?).map Entry.term = some m.lastTerm) ∧
  ∀ j, j < k → (l[m.lastIdx + j]?).map Entry.term = (m.entries[j]?).map Entry.term

/-- A message of type `ty` to `i` that some server sent. -/
def Sent (H : History) (i : Int) (ty : MsgType) (m : Req) : Prop := (∃ j, (j, .send m) ∈ H) ∧ m.dst = i ∧ m.type = ty

/-- Effects the protocol does not depend on. -/
def Eff.neutral : Eff → Prop
  | .preCommit _ _ | .rollback _ _ | .event _ | .exit _ | .saveConfig _ => True
  | .reply r => r.accepted = true → r.type ≠ .voteResp ∧ r.type ≠ .appendResp
  | .send m => m.type = .prevoteReq
  | _ => False

/-- The effects of server `i`, and what they do to its state. -/
inductive Act (S : List Int) (H : History) (i : Int) : PS → Eff → PS → Prop
  /-- a new term -/
  | raise {c : PS} {t : Nat} {r : Role} : c.term < t → r ≠ .leader →
      Act S H i c (.saveState t (-1)) { c with term := t, vote := -1, role := r, counting := true }
  /-- the vote for itself -/
  | self {c : PS} : c.role = .candidate → c.vote = -1 → Act S H i c (.saveState c.term i) { c with vote := i }
  /-- the vote for another server -/
  | grant {c : PS} {m : Req} : Sent H i .voteReq m → m.term = c.term → (c.vote = m.src ∨ c.vote = -1) →
      (lastTermOf c.log < m.lastTerm ∨ m.lastTerm = lastTermOf c.log ∧ c.log.length ≤ m.lastIdx) →
      Act S H i c (.saveState c.term m.src) { c with vote := m.src }
  /-- a vote request -/
  | ask {c : PS} {m : Req} : m.type = .voteReq → m.src = i → m.dst ≠ i → m.term = c.term → c.vote = i →
      c.role = .candidate → m.lastIdx = c.log.length → m.lastTerm = lastTermOf c.log → Act S H i c (.send m) c
  /-- leadership -/
  | lead {c : PS} {V : List Int} : c.counting = true → V.Nodup → (∀ v ∈ V, v ∈ S) → S.length < 2 * V.length →
      (∀ v ∈ V, v = i ∧ c.vote = i ∨
        ∃ r, (v, .reply r) ∈ H ∧ r.type = .voteResp ∧ r.accepted = true ∧ r.term = c.term ∧ r.dst = i) →
      Act S H i c (.lead c.term) { c with role := .leader, counting := false }
  /-- the leader adds an entry to its log -/
  | appendOwn {c : PS} {e : Entry} : c.role = .leader → e.term = c.term →
      Act S H i c (.append e) { c with log := c.log ++ [e] }
  /-- an entry of an append request goes behind the log -/
  | append {c : PS} {m : Req} {k : Nat} {e : Entry} : Sent H i .appendReq m → m.term = c.term → c.role = .follower →
      Agree c.log m k → m.entries[k]? = some e → c.log.length = m.lastIdx + k →
      Act S H i c (.append e) { c with log := c.log ++ [e] }
  /-- an entry of an append request replaces one of another term and all behind it -/
  | write {c : PS} {m : Req} {k : Nat} {e x : Entry} : Sent H i .appendReq m → m.term = c.term → c.role = .follower →
      Agree c.log m k → m.entries[k]? = some e → c.log[m.lastIdx + k]? = some x → x.term ≠ e.term →
      Act S H i c (.writeAt (m.lastIdx + k + 1) e) { c with log := c.log.take (m.lastIdx + k) ++ [e] }
  /-- an append request -/
  | replicate {c : PS} {m : Req} : m.type = .appendReq → m.src = i → m.dst ≠ i → m.term = c.term → c.role = .leader →
      m.lastIdx ≤ c.log.length → (m.lastIdx = 0 ∨ (c.log[m.lastIdx - 1]?).map Entry.term = some m.lastTerm) →
      m.entries <+: c.log.drop m.lastIdx → m.commitIdx = c.qc → Act S H i c (.send m) c
  /-- a positive answer to a vote request -/
  | voted {c : PS} {r : Resp} : r.type = .voteResp → r.accepted = true → r.term = c.term → r.dst = c.vote → r.dst ≠ -1 →
      Act S H i c (.reply r) c
  /-- a positive answer to an append request, or of the leader to a client -/
  | stored {c : PS} {r : Resp} : r.type = .appendResp → r.accepted = true → r.term = c.term →
      ((∃ m, Sent H i .appendReq m ∧ m.term = c.term ∧ Agree c.log m m.entries.length ∧
          r.nextIdx = m.lastIdx + m.entries.length + 1) ∨
        c.role = .leader ∧ r.nextIdx = c.log.length + 1) → Act S H i c (.reply r) c
  /-- a majority has the entries up to `n`, as far as the answers of any term tell -/
  | advance {c : PS} {n : Nat} {V : List Int} : c.qc < n → V.Nodup → (∀ v ∈ V, v ∈ S) → S.length < 2 * V.length →
      (∀ v ∈ V, v = i ∧ n ≤ c.log.length ∨
        ∃ r, (v, .reply r) ∈ H ∧ r.type = .appendResp ∧ r.accepted = true ∧ n < r.nextIdx) →
      Act S H i c (.advance n) { c with qc := n }
  /-- the commit index of an append request -/
  | follow {c : PS} {m : Req} : c.qc < m.commitIdx → Sent H i .appendReq m → m.term = c.term →
      Agree c.log m m.entries.length → Act S H i c (.advance m.commitIdx) { c with qc := m.commitIdx }
  /-- an entry is handed to the state machine -/
  | apply {c : PS} {k : Nat} {e : Entry} : k < c.qc → c.log[k]? = some e → Act S H i c (.commit (k + 1) e) c
  /-- anything else -/
  | other {c : PS} {e : Eff} : e.neutral → Act S H i c e c

/-- Changes without effects. -/
inductive Quiet (H : History) (i : Int) : PS → PS → Prop
  /-- the candidate hears of the leader of its term -/
  | stepDown {c : PS} {m : Req} : Sent H i .appendReq m → m.term = c.term → c.role = .candidate →
      Quiet H i c { c with role := .follower }
  /-- the election is over -/
  | complete {c : PS} : Quiet H i c { c with counting := false }
  /-- a crash, or the end of the process -/
  | crash {c : PS} {q : Nat} : q ≤ c.qc → Quiet H i c { c with role := .follower, counting := false, qc := q }

/-- Change the state of one server. -/
def upd (ps : Int → PS) (i : Int) (c : PS) (k : Int) : PS := if k = i then c else ps k

theorem upd_self (ps : Int → PS) (i : Int) (c : PS) : upd ps i c i = c := if_pos rfl
theorem upd_ne {ps : Int → PS} {i k : Int} {c : PS} (h : k ≠ i) : upd ps i c k = ps k := if_neg h

/-- Steps of the cluster. -/
inductive PStep (S : List Int) : (Int → PS) → History → (Int → PS) → History → Prop
  | act {ps : Int → PS} {H : History} {i : Int} {e : Eff} {c : PS} : i ∈ S → Act S H i (ps i) e c →
      PStep S ps H (upd ps i c) (H ++ [(i, e)])
  | quiet {ps : Int → PS} {H : History} {i : Int} {c : PS} : i ∈ S → Quiet H i (ps i) c → PStep S ps H (upd ps i c) H

/-! ## Majorities -/

/-- More than half of the servers. -/
def Quorum (S V : List Int) : Prop := V.Nodup ∧ (∀ v ∈ V, v ∈ S) ∧ S.length < 2 * V.length

theorem nodup_length_le {V S : List Int} (h1 : V.Nodup) (h2 : ∀ v ∈ V, v ∈ S) : V.length ≤ S.length := by
  induction V generalizing S with
  | nil => simp
  | cons a V ih =>
    rw [List.nodup_cons] at h1
    have ha := h2 a List.mem_cons_self
    have := ih (S := S.erase a) h1.2 fun v hv => by
      rw [List.mem_erase_of_ne]
      · exact h2 v (List.mem_cons_of_mem _ hv)
      · rintro rfl; exact h1.1 hv
    rw [List.length_erase_of_mem ha] at this
    have := List.length_pos_of_mem ha
    simp only [List.length_cons]
    omega

/-- Two majorities have a server in common. -/
theorem Quorum.inter {S V W : List Int} (hv : Quorum S V) (hw : Quorum S W) : ∃ x, x ∈ V ∧ x ∈ W := by
  by_cases h : ∃ x, x ∈ V ∧ x ∈ W
  · exact h
  · exfalso
    have := nodup_length_le (V := V ++ W) (S := S)
      (List.nodup_append.2 ⟨hv.1, hw.1, fun a ha b hb hab => h ⟨a, ha, hab ▸ hb⟩⟩)
      (fun v hm => (List.mem_append.1 hm).elim (hv.2.1 v) (hw.2.1 v))
    rw [List.length_append] at this
    have := hv.2.2
    have := hw.2.2
    omega

/-! ## Facts about single effects -/

section
variable {S : List Int} {H : History} {i : Int} {c c' : PS} {e : Eff}

theorem Act.term_le (h : Act S H i c e c') : c.term ≤ c'.term := by
  cases h <;> first | exact Nat.le_refl _ | exact Nat.le_of_lt ‹_›

theorem Act.vote_keep (h : Act S H i c e c') (ht : c'.term = c.term) : c.vote = -1 ∨ c'.vote = c.vote := by
  cases h
  case raise h _ => exact absurd h (by have : _ = c.term := ht; simp only [] at this; omega)
  case self h _ => exact .inl ‹_›
  case grant h2 h3 h4 => exact h3.symm.imp id fun h => h.symm
  all_goals exact .inr rfl

theorem Act.saved {t : Nat} {v : Int} (h : Act S H i c (.saveState t v) c') : t = c'.term ∧ v = c'.vote := by
  cases h
  case other h => cases h
  all_goals exact ⟨rfl, rfl⟩

theorem Act.vote_new (h : Act S H i c e c') (hv : c'.vote ≠ -1) :
    c'.term = c.term ∧ c'.vote = c.vote ∨ e = .saveState c'.term c'.vote := by
  cases h
  case raise => exact absurd rfl hv
  case self => exact .inr rfl
  case grant => exact .inr rfl
  all_goals exact .inl ⟨rfl, rfl⟩

theorem Act.counting_new (h : Act S H i c e c') (hv : c'.counting = true) :
    c.counting = true ∧ c'.term = c.term ∨ c.term < c'.term := by
  cases h
  case raise h _ => exact .inr h
  case lead => cases hv
  all_goals exact .inl ⟨hv, rfl⟩

theorem Quiet.frame (h : Quiet H i c c') : c'.term = c.term ∧ c'.vote = c.vote ∧ c'.log = c.log ∧
    (c'.counting = true → c.counting = true) ∧ (c'.role = .follower ∨ c'.role = c.role) ∧ c'.qc ≤ c.qc := by
  cases h
  · exact ⟨rfl, rfl, rfl, id, .inl rfl, Nat.le_refl _⟩
  · exact ⟨rfl, rfl, rfl, nofun, .inr rfl, Nat.le_refl _⟩
  · exact ⟨rfl, rfl, rfl, nofun, .inl rfl, ‹_›⟩
end

theorem mem_snoc {α : Type} {H : List α} {a b : α} : a ∈ H ++ [b] ↔ a ∈ H ∨ a = b := by simp

/-! ## Votes and leaders -/

/-- What holds about votes and leaders. -/
structure VotesOk (S : List Int) (ps : Int → PS) (H : History) : Prop where
  mem : ∀ {i e}, (i, e) ∈ H → i ∈ S
  saved : ∀ {i t v}, (i, .saveState t v) ∈ H → t ≤ (ps i).term ∧ (t = (ps i).term → v = -1 ∨ v = (ps i).vote)
  vote : ∀ {i}, (ps i).vote ≠ -1 → (i, .saveState (ps i).term (ps i).vote) ∈ H
  uniq : ∀ {i t v w}, (i, .saveState t v) ∈ H → (i, .saveState t w) ∈ H → v ≠ -1 → w ≠ -1 → v = w
  granted : ∀ {i r}, (i, .reply r) ∈ H → r.type = .voteResp → r.accepted = true →
    (i, .saveState r.term r.dst) ∈ H ∧ r.dst ≠ -1
  self : ∀ {i t v}, (i, .saveState t v) ∈ H → v ≠ -1 → (v, .saveState t v) ∈ H
  sent : ∀ {i m}, (i, .send m) ∈ H → m.type ≠ .prevoteReq → m.src = i ∧ m.dst ≠ i
  asked : ∀ {i m}, (i, .send m) ∈ H → m.type = .voteReq → (i, .saveState m.term i) ∈ H
  led : ∀ {i t}, (i, .lead t) ∈ H → ∃ V, Quorum S V ∧ ∀ v ∈ V, (v, .saveState t i) ∈ H
  ledTerm : ∀ {i t}, (i, .lead t) ∈ H → t ≤ (ps i).term ∧ (t = (ps i).term → (ps i).counting = false)
  leader : ∀ {i}, (ps i).role = .leader → (i, .lead (ps i).term) ∈ H ∧ (ps i).counting = false
  replicated : ∀ {i m}, (i, .send m) ∈ H → m.type = .appendReq → (i, .lead m.term) ∈ H
  follow : ∀ {i}, (ps i).counting = true → (ps i).vote = i → (ps i).role = .follower →
    ∃ j, j ≠ i ∧ (j, .lead (ps i).term) ∈ H

/-- At most one leader per term. -/
theorem VotesOk.one_leader {S : List Int} {ps : Int → PS} {H : History} (hS : -1 ∉ S) (h : VotesOk S ps H) {i j : Int}
    {t : Nat} (hi : (i, .lead t) ∈ H) (hj : (j, .lead t) ∈ H) : i = j := by
  obtain ⟨V, qv, hv⟩ := h.led hi
  obtain ⟨W, qw, hw⟩ := h.led hj
  obtain ⟨x, xv, xw⟩ := qv.inter qw
  refine h.uniq (hv x xv) (hw x xw) ?_ ?_
  · rintro rfl; exact hS (h.mem hi)
  · rintro rfl; exact hS (h.mem hj)

/-- A server that gets a majority of votes while it counts was a candidate, and is the first leader of its term. -/
theorem VotesOk.fresh {S : List Int} {ps : Int → PS} {H : History} (hS : -1 ∉ S) (h : VotesOk S ps H) {i : Int}
    {V : List Int} (hi : i ∈ S) (hc : (ps i).counting = true) (hq : Quorum S V)
    (hv : ∀ v ∈ V, v = i ∧ (ps i).vote = i ∨
        ∃ r, (v, .reply r) ∈ H ∧ r.type = .voteResp ∧ r.accepted = true ∧ r.term = (ps i).term ∧ r.dst = i) :
    (∀ v ∈ V, (v, .saveState (ps i).term i) ∈ H) ∧ (∀ j, (j, .lead (ps i).term) ∉ H) ∧ (ps i).vote = i ∧
      (ps i).role = .candidate := by
  have hne : i ≠ -1 := by rintro rfl; exact hS hi
  have hvs : ∀ v ∈ V, (v, .saveState (ps i).term i) ∈ H := by
    intro v hm
    rcases hv v hm with ⟨rfl, h1⟩ | ⟨r, r1, r2, r3, r4, r5⟩
    · have := h.vote (i := v) (by rw [h1]; exact hne)
      rw [h1] at this; exact this
    · have := (h.granted r1 r2 r3).1
      rw [r4, r5] at this; exact this
  have hno : ∀ j, (j, .lead (ps i).term) ∉ H := by
    intro j hj
    obtain ⟨W, qw, hw⟩ := h.led hj
    obtain ⟨x, xv, xw⟩ := hq.inter qw
    have hij : i = j := h.uniq (hvs x xv) (hw x xw) hne (by rintro rfl; exact hS (h.mem hj))
    subst hij
    have := (h.ledTerm hj).2 rfl
    rw [hc] at this; cases this
  have hvote : (ps i).vote = i := by
    obtain ⟨v, hm⟩ : ∃ v, v ∈ V := by
      cases V with
      | nil => have := hq.2.2; simp at this
      | cons v V => exact ⟨v, List.mem_cons_self⟩
    have := h.self (hvs v hm) hne
    rcases (h.saved this).2 rfl with h | h
    · exact absurd h hne
    · exact h.symm
  refine ⟨hvs, hno, hvote, ?_⟩
  cases hr : (ps i).role with
  | candidate => rfl
  | leader => have := (h.leader hr).2; rw [hc] at this; cases this
  | follower =>
    obtain ⟨j, _, hj⟩ := h.follow hc hvote hr
    exact absurd hj (hno j)

theorem VotesOk.act {S : List Int} {ps : Int → PS} {H : History} {i : Int} {e : Eff} {c : PS} (hS : -1 ∉ S)
    (h : VotesOk S ps H) (hi : i ∈ S) (ha : Act S H i (ps i) e c) : VotesOk S (upd ps i c) (H ++ [(i, e)]) := by
  have hne : i ≠ -1 := by rintro rfl; exact hS hi
  have saved : ∀ {k t v}, (k, .saveState t v) ∈ H ++ [(i, e)] →
      t ≤ (upd ps i c k).term ∧ (t = (upd ps i c k).term → v = -1 ∨ v = (upd ps i c k).vote) := by
    intro k t v hm
    replace hm := mem_snoc.1 hm
    rcases hm with hm | hm
    · by_cases hk : k = i
      · subst hk
        rw [upd_self]
        obtain ⟨h1, h2⟩ := h.saved hm
        refine ⟨Nat.le_trans h1 ha.term_le, fun ht => ?_⟩
        have hle := ha.term_le
        have e1 : t = (ps k).term := by omega
        rcases h2 e1 with h3 | h3
        · exact .inl h3
        · rcases ha.vote_keep (by omega) with h4 | h4
          · exact .inl (h3.trans h4)
          · exact .inr (h3.trans h4.symm)
      · rw [upd_ne hk]; exact h.saved hm
    · cases hm
      rw [upd_self]
      obtain ⟨rfl, rfl⟩ := ha.saved
      exact ⟨Nat.le_refl _, fun _ => .inr rfl⟩
  refine { saved := saved, mem := ?_, vote := ?_, uniq := ?_, granted := ?_, self := ?_, sent := ?_, asked := ?_, led := ?_,
           ledTerm := ?_, leader := ?_, replicated := ?_, follow := ?_ }
  · intro k e' hm
    replace hm := mem_snoc.1 hm
    rcases hm with hm | hm
    · exact h.mem hm
    · cases hm; exact hi
  · intro k hv
    by_cases hk : k = i
    · subst hk
      rw [upd_self] at hv ⊢
      rcases ha.vote_new hv with ⟨h1, h2⟩ | h1
      · rw [h1, h2]
        exact mem_snoc.2 (.inl (h.vote (by rw [← h2]; exact hv)))
      · rw [h1]; exact mem_snoc.2 (.inr rfl)
    · rw [upd_ne hk] at hv ⊢
      exact mem_snoc.2 (.inl (h.vote hv))
  · intro k t v w hv hw nv nw
    rcases mem_snoc.1 hv with hv' | hv' <;> rcases mem_snoc.1 hw with hw' | hw'
    · exact h.uniq hv' hw' nv nw
    · cases hw'
      have := (saved hv).2
      rw [upd_self] at this
      obtain ⟨rfl, rfl⟩ := ha.saved
      exact (this rfl).resolve_left nv
    · cases hv'
      have := (saved hw).2
      rw [upd_self] at this
      obtain ⟨rfl, rfl⟩ := ha.saved
      exact ((this rfl).resolve_left nw).symm
    · cases hv'; cases hw'; rfl
  · intro k r hm ht hacc
    replace hm := mem_snoc.1 hm
    rcases hm with hm | hm
    · obtain ⟨h1, h2⟩ := h.granted hm ht hacc
      exact ⟨mem_snoc.2 (.inl h1), h2⟩
    · cases hm
      generalize hc : ps i = ci at ha
      cases ha with
      | voted h1 h2 h3 h4 h5 =>
        refine ⟨mem_snoc.2 (.inl ?_), h5⟩
        have := h.vote (i := i) (by rw [hc, ← h4]; exact h5)
        rw [hc] at this
        rw [h3, h4]; exact this
      | stored h1 => rw [h1] at ht; cases ht
      | other h1 => exact absurd ht (h1 hacc).1
  · intro k t v hm hv
    replace hm := mem_snoc.1 hm
    rcases hm with hm | hm
    · exact mem_snoc.2 (.inl (h.self hm hv))
    · cases hm
      generalize hc : ps i = ci at ha
      cases ha with
      | raise => exact absurd rfl hv
      | self => exact mem_snoc.2 (.inr rfl)
      | @grant m hs ht _ _ =>
        obtain ⟨⟨j, hj⟩, _, hty⟩ := hs
        have h1 := h.asked hj hty
        obtain ⟨h2, _⟩ := h.sent hj (by rw [hty]; nofun)
        rw [← h2, ht] at h1
        exact mem_snoc.2 (.inl h1)
      | other h1 => cases h1
  · intro k m hm ht
    replace hm := mem_snoc.1 hm
    rcases hm with hm | hm
    · exact h.sent hm ht
    · cases hm
      cases ha with
      | ask h1 h2 h3 => exact ⟨h2, h3⟩
      | replicate h1 h2 h3 => exact ⟨h2, h3⟩
      | other h1 => exact absurd h1 ht
  · intro k m hm ht
    replace hm := mem_snoc.1 hm
    rcases hm with hm | hm
    · exact mem_snoc.2 (.inl (h.asked hm ht))
    · cases hm
      generalize hc : ps i = ci at ha
      cases ha with
      | ask h1 h2 h3 h4 h5 =>
        have := h.vote (i := i) (by rw [hc, h5]; exact hne)
        rw [hc, h5, ← h4] at this
        exact mem_snoc.2 (.inl this)
      | replicate h1 => rw [h1] at ht; cases ht
      | other h1 => rw [show _ = MsgType.prevoteReq from h1] at ht; cases ht
  · intro k t hm
    have mono : ∀ V : List Int, (∀ v ∈ V, (v, Eff.saveState t k) ∈ H) → ∀ v ∈ V, (v, Eff.saveState t k) ∈ H ++ [(i, e)] :=
      fun V hv v hm => mem_snoc.2 (.inl (hv v hm))
    replace hm := mem_snoc.1 hm
    rcases hm with hm | hm
    · obtain ⟨V, q, hv⟩ := h.led hm
      exact ⟨V, q, mono V hv⟩
    · cases hm
      generalize hc : ps i = ci at ha
      cases ha with
      | @lead V h1 h2 h3 h4 h5 =>
        subst hc
        exact ⟨V, ⟨h2, h3, h4⟩, mono V (h.fresh hS hi h1 ⟨h2, h3, h4⟩ h5).1⟩
      | other h1 => cases h1
  · intro k t hm
    replace hm := mem_snoc.1 hm
    rcases hm with hm | hm
    · obtain ⟨h1, h2⟩ := h.ledTerm hm
      by_cases hk : k = i
      · subst hk
        rw [upd_self]
        have := ha.term_le
        refine ⟨by omega, fun ht => ?_⟩
        cases hcc : c.counting with
        | false => rfl
        | true =>
          rcases ha.counting_new hcc with ⟨h3, h4⟩ | h3
          · rw [h2 (by omega)] at h3; cases h3
          · omega
      · rw [upd_ne hk]; exact ⟨h1, h2⟩
    · cases hm
      rw [upd_self]
      generalize hc : ps i = ci at ha
      cases ha with
      | lead => exact ⟨Nat.le_refl _, fun _ => rfl⟩
      | other h1 => cases h1
  · intro k hr
    by_cases hk : k = i
    · subst hk
      rw [upd_self] at hr ⊢
      generalize hc : ps k = ci at ha
      have old : ci.role = .leader → (k, .lead ci.term) ∈ H ++ [(k, e)] ∧ ci.counting = false := fun hr => by
        have := h.leader (i := k) (by rw [hc]; exact hr)
        rw [hc] at this
        exact ⟨mem_snoc.2 (.inl this.1), this.2⟩
      cases ha with
      | raise _ h2 => exact absurd hr h2
      | lead => exact ⟨mem_snoc.2 (.inr rfl), rfl⟩
      | _ => exact old hr
    · rw [upd_ne hk] at hr ⊢
      obtain ⟨h1, h2⟩ := h.leader hr
      exact ⟨mem_snoc.2 (.inl h1), h2⟩
  · intro k m hm ht
    replace hm := mem_snoc.1 hm
    rcases hm with hm | hm
    · exact mem_snoc.2 (.inl (h.replicated hm ht))
    · cases hm
      generalize hc : ps i = ci at ha
      cases ha with
      | ask h1 => rw [h1] at ht; cases ht
      | replicate h1 h2 h3 h4 h5 =>
        have := (h.leader (i := i) (by rw [hc]; exact h5)).1
        rw [hc, ← h4] at this
        exact mem_snoc.2 (.inl this)
      | other h1 => rw [show _ = MsgType.prevoteReq from h1] at ht; cases ht
  · intro k h1 h2 h3
    have mono : ∀ t, (∃ j, j ≠ k ∧ (j, Eff.lead t) ∈ H) → ∃ j, j ≠ k ∧ (j, Eff.lead t) ∈ H ++ [(i, e)] :=
      fun t ⟨j, hj, hm⟩ => ⟨j, hj, mem_snoc.2 (.inl hm)⟩
    by_cases hk : k = i
    · subst hk
      rw [upd_self] at h1 h2 h3 ⊢
      generalize hc : ps k = ci at ha
      have old : ci.counting = true → ci.vote = k → ci.role = .follower →
          ∃ j, j ≠ k ∧ (j, Eff.lead ci.term) ∈ H ++ [(k, e)] := fun a b d => by
        have := h.follow (i := k) (by rw [hc]; exact a) (by rw [hc]; exact b) (by rw [hc]; exact d)
        rw [hc] at this
        exact mono _ this
      cases ha with
      | raise => exact absurd h2.symm hne
      | self h4 => rw [show _ = Role.follower from h3] at h4; cases h4
      | @grant m hs ht hv _ =>
        obtain ⟨⟨j, hj⟩, hd, hty⟩ := hs
        obtain ⟨h4, h5⟩ := h.sent hj (by rw [hty]; nofun)
        have : m.src = k := h2
        exact absurd (hd.trans (this.symm.trans h4)) h5
      | lead => cases h1
      | _ => exact old h1 h2 h3
    · rw [upd_ne hk] at h1 h2 h3 ⊢
      exact mono _ (h.follow h1 h2 h3)

theorem VotesOk.quiet {S : List Int} {ps : Int → PS} {H : History} {i : Int} {c : PS}
    (h : VotesOk S ps H) (ha : Quiet H i (ps i) c) : VotesOk S (upd ps i c) H := by
  obtain ⟨q1, q2, q3, q4, q5, _⟩ := ha.frame
  have hterm : ∀ k, (upd ps i c k).term = (ps k).term := fun k => by
    by_cases hk : k = i
    · subst hk; rw [upd_self]; exact q1
    · rw [upd_ne hk]
  have hvote : ∀ k, (upd ps i c k).vote = (ps k).vote := fun k => by
    by_cases hk : k = i
    · subst hk; rw [upd_self]; exact q2
    · rw [upd_ne hk]
  have hcount : ∀ k, (upd ps i c k).counting = true → (ps k).counting = true := fun k => by
    by_cases hk : k = i
    · subst hk; rw [upd_self]; exact q4
    · rw [upd_ne hk]; exact id
  have hcount' : ∀ k, (ps k).counting = false → (upd ps i c k).counting = false := fun k hk => by
    cases hc : (upd ps i c k).counting with
    | false => rfl
    | true => rw [hcount k hc] at hk; cases hk
  refine { mem := h.mem, uniq := h.uniq, granted := h.granted, self := h.self, sent := h.sent, asked := h.asked,
           led := h.led, replicated := h.replicated, saved := ?_, vote := ?_, ledTerm := ?_, leader := ?_, follow := ?_ }
  · intro k t v hm; rw [hterm, hvote]; exact h.saved hm
  · intro k hv; rw [hterm, hvote]; rw [hvote] at hv; exact h.vote hv
  · intro k t hm; rw [hterm]
    exact ⟨(h.ledTerm hm).1, fun ht => hcount' k ((h.ledTerm hm).2 ht)⟩
  · intro k hr
    rw [hterm]
    have : (ps k).role = .leader := by
      by_cases hk : k = i
      · subst hk
        rw [upd_self] at hr
        rcases q5 with h5 | h5
        · rw [h5] at hr; cases hr
        · rw [← h5]; exact hr
      · rw [upd_ne hk] at hr; exact hr
    exact ⟨(h.leader this).1, hcount' k (h.leader this).2⟩
  · intro k h1 h2 h3
    rw [hterm]
    rw [hvote] at h2
    have h1' := hcount k h1
    by_cases hk : k = i
    · subst hk
      rw [upd_self] at h1 h3
      generalize hc : ps k = ci at ha
      cases ha with
      | @stepDown m hs ht hr =>
        obtain ⟨⟨j, hj⟩, hd, hty⟩ := hs
        have h4 := h.replicated hj hty
        obtain ⟨h5, h6⟩ := h.sent hj (by rw [hty]; nofun)
        refine ⟨j, fun he => h6 (he ▸ hd), ?_⟩
        rw [← ht]; exact h4
      | complete => cases h1
      | crash => cases h1
    · rw [upd_ne hk] at h3
      exact h.follow h1' h2 h3

end Cs.Raft
