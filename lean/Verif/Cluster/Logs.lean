import Verif.Cluster.Proto

/-!
# Logs of the cluster

The ghosts say which log the leader of a term has (`llog`), which log it was elected with (`elog`), and which log a candidate
of a term has (`clog`). Every log is, up to any of its entries, the log of the leader of the term of that entry.
-/

namespace Cs.Raft
open Cs

structure Ghost where
  llog : Nat → List Entry := fun _ => []
  elog : Nat → List Entry := fun _ => []
  clog : Nat → Int → List Entry := fun _ _ => []

/-- Up to any entry, the log is that of the leader of the term of the entry. -/
def Lin (g : Ghost) (l : List Entry) : Prop := ∀ k e, l[k]? = some e → l.take (k + 1) <+: g.llog e.term

/-- Terms do not decrease. -/
def Sorted (l : List Entry) : Prop := l.Pairwise fun a b => a.term ≤ b.term

/-- There is a leader of the term. -/
def Led (H : History) (t : Nat) : Prop := ∃ i, (i, .lead t) ∈ H

structure SrvOk (g : Ghost) (i : Int) (c : PS) : Prop where
  cand : c.role = .candidate → (∀ e ∈ c.log, e.term < c.term) ∧ (c.vote = i → c.log = g.clog c.term i)
  lead : c.role = .leader → c.log = g.llog c.term
  terms : ∀ e ∈ c.log, e.term ≤ c.term
  lin : Lin g c.log
  sorted : Sorted c.log

/-- What a request says about the log of its sender. -/
structure SliceOf (l : List Entry) (m : Req) : Prop where
  le : m.lastIdx ≤ l.length
  prev : m.lastIdx = 0 ∨ (l[m.lastIdx - 1]?).map Entry.term = some m.lastTerm
  ents : m.entries <+: l.drop m.lastIdx

structure GhostOk (H : History) (g : Ghost) : Prop where
  none : ∀ {t}, ¬ Led H t → g.llog t = []
  elect : ∀ {t i}, (i, .lead t) ∈ H → g.elog t = g.clog t i ∧ g.elog t <+: g.llog t ∧ (∀ e ∈ g.elog t, e.term < t) ∧
    ∀ e ∈ (g.llog t).drop (g.elog t).length, e.term = t
  linL : ∀ t, Lin g (g.llog t)
  sortedL : ∀ t, Sorted (g.llog t)
  linC : ∀ t i, Lin g (g.clog t i)
  sortedC : ∀ t i, Sorted (g.clog t i)
  termsC : ∀ t i, ∀ e ∈ g.clog t i, e.term < t
  asks : ∀ {i m}, (i, .send m) ∈ H → m.type = .voteReq →
    m.lastIdx = (g.clog m.term i).length ∧ m.lastTerm = lastTermOf (g.clog m.term i)
  slices : ∀ {i m}, (i, .send m) ∈ H → m.type = .appendReq → SliceOf (g.llog m.term) m

structure LogsOk (S : List Int) (ps : Int → PS) (H : History) (g : Ghost) : Prop where
  votes : VotesOk S ps H
  srv : ∀ i, SrvOk g i (ps i)
  ghost : GhostOk H g

/-- Ghosts of a later state. -/
structure Ghost.Le (H : History) (g g' : Ghost) : Prop where
  llog : ∀ t, g.llog t <+: g'.llog t
  elog : ∀ {t}, Led H t → g'.elog t = g.elog t
  clog : ∀ {t i}, (i, .saveState t i) ∈ H → g'.clog t i = g.clog t i

theorem Ghost.Le.refl (H : History) (g : Ghost) : Ghost.Le H g g :=
  ⟨fun _ => List.prefix_refl _, fun _ => rfl, fun _ => rfl⟩

/-! ## Lists -/

theorem take_of_prefix {α : Type} {l m : List α} {n : Nat} (h : l <+: m) (hn : n ≤ l.length) : l.take n = m.take n := by
  obtain ⟨r, rfl⟩ := h
  rw [List.take_append_of_le_length hn]

theorem prefix_of_prefix {α : Type} {a b l : List α} (ha : a <+: l) (hb : b <+: l) (h : a.length ≤ b.length) : a <+: b :=
  List.prefix_of_prefix_length_le ha hb h

theorem get_of_prefix {α : Type} {l m : List α} {k : Nat} {e : α} (h : l <+: m) (hk : l[k]? = some e) : m[k]? = some e := by
  obtain ⟨r, rfl⟩ := h
  rw [List.getElem?_append_left (List.getElem?_eq_some_iff.1 hk).1]
  exact hk

theorem get_of_prefix' {α : Type} {l m : List α} {k : Nat} (h : l <+: m) (hk : k < l.length) : m[k]? = l[k]? := by
  obtain ⟨r, rfl⟩ := h
  rw [List.getElem?_append_left hk]

theorem take_snoc {α : Type} {l : List α} {n : Nat} {e : α} (h : l[n]? = some e) : l.take n ++ [e] = l.take (n + 1) := by
  rw [List.take_add_one, h]; rfl

/-! ## Properties of lists of entries -/

theorem Lin.nil (g : Ghost) : Lin g [] := fun _ _ h => by simp at h

theorem Lin.prefix {g : Ghost} {l m : List Entry} (h : Lin g m) (hp : l <+: m) : Lin g l := by
  intro k e hk
  have hl := (List.getElem?_eq_some_iff.1 hk).1
  rw [take_of_prefix hp (by omega)]
  exact h k e (get_of_prefix hp hk)

theorem Lin.mono {H : History} {g g' : Ghost} {l : List Entry} (h : Lin g l) (hle : Ghost.Le H g g') : Lin g' l :=
  fun k e hk => (h k e hk).trans (hle.llog _)

theorem Lin.snoc {g : Ghost} {l : List Entry} {e : Entry} (h : Lin g l) (he : l ++ [e] <+: g.llog e.term) :
    Lin g (l ++ [e]) := by
  intro k x hk
  by_cases hl : k < l.length
  · rw [List.getElem?_append_left hl] at hk
    rw [List.take_append_of_le_length (by omega)]
    exact h k x hk
  · have hk' := (List.getElem?_eq_some_iff.1 hk).1
    rw [List.length_append, List.length_singleton] at hk'
    have : k = l.length := by omega
    subst this
    rw [List.getElem?_append_right (Nat.le_refl _)] at hk
    simp at hk
    subst hk
    rw [List.take_of_length_le (by simp)]
    exact he

/-- Two logs that have entries of the same term in one position are equal up to it. -/
theorem Lin.match {g : Ghost} {l m : List Entry} (hl : Lin g l) (hm : Lin g m) {k : Nat} {a b : Entry}
    (ha : l[k]? = some a) (hb : m[k]? = some b) (ht : a.term = b.term) : l.take (k + 1) = m.take (k + 1) := by
  have h1 := hl k a ha
  have h2 := hm k b hb
  rw [← ht] at h2
  have l1 := (List.getElem?_eq_some_iff.1 ha).1
  have l2 := (List.getElem?_eq_some_iff.1 hb).1
  exact (prefix_of_prefix h1 h2 (by simp; omega)).eq_of_length (by simp; omega)

theorem Sorted.prefix {l m : List Entry} (h : Sorted m) (hp : l <+: m) : Sorted l := h.sublist hp.sublist

theorem Sorted.snoc {l : List Entry} {e : Entry} (h : Sorted l) (he : ∀ x ∈ l, x.term ≤ e.term) : Sorted (l ++ [e]) :=
  List.pairwise_append.2 ⟨h, List.pairwise_singleton _ _, fun a ha b hb => by
    rw [List.mem_singleton] at hb; subst hb; exact he a ha⟩

theorem lastTermOf_get {l : List Entry} {e : Entry} (h : l[l.length - 1]? = some e) : lastTermOf l = e.term := by
  unfold lastTermOf
  rw [List.getLast?_eq_getElem?, h]

theorem Sorted.le_last {l : List Entry} (h : Sorted l) {e : Entry} (he : e ∈ l) : e.term ≤ lastTermOf l := by
  have hpos := List.length_pos_of_mem he
  have hx : l[l.length - 1]? = some (l[l.length - 1]'(by omega)) := List.getElem?_eq_getElem _
  rw [lastTermOf_get hx]
  obtain ⟨k, hk, rfl⟩ := List.getElem_of_mem he
  by_cases hkl : k = l.length - 1
  · subst hkl; exact Nat.le_refl _
  · exact List.pairwise_iff_getElem.1 h k (l.length - 1) hk (by omega) (by omega)

/-! ## Consequences -/

theorem GhostOk.terms {H : History} {g : Ghost} (h : GhostOk H g) (t : Nat) : ∀ e ∈ g.llog t, e.term ≤ t := by
  intro e he
  by_cases hl : Led H t
  · obtain ⟨i, hi⟩ := hl
    obtain ⟨_, h2, h3, h4⟩ := h.elect hi
    obtain ⟨r, hr⟩ := h2
    rw [← hr] at he
    rcases List.mem_append.1 he with he | he
    · exact Nat.le_of_lt (h3 e he)
    · refine Nat.le_of_eq (h4 e ?_)
      rw [← hr, List.drop_left]; exact he
  · rw [h.none hl] at he; cases he

theorem SliceOf.mono {l l' : List Entry} {m : Req} (h : SliceOf l m) (hp : l <+: l') : SliceOf l' m := by
  refine ⟨Nat.le_trans h.le hp.length_le, ?_, ?_⟩
  · rcases h.prev with h0 | h1
    · exact .inl h0
    · right
      rw [Option.map_eq_some_iff] at h1 ⊢
      obtain ⟨a, h2, h3⟩ := h1
      exact ⟨a, get_of_prefix hp h2, h3⟩
  · obtain ⟨r, rfl⟩ := hp
    rw [List.drop_append_of_le_length h.le]
    exact h.ents.trans (List.prefix_append _ _)

/-- Entries of a request are entries of the log of its sender. -/
theorem SliceOf.get {l : List Entry} {m : Req} (h : SliceOf l m) {k : Nat} (hk : k < m.entries.length) :
    m.entries[k]? = l[m.lastIdx + k]? := by
  rw [← List.getElem?_drop, get_of_prefix' h.ents hk]

theorem SliceOf.length {l : List Entry} {m : Req} (h : SliceOf l m) : m.lastIdx + m.entries.length ≤ l.length := by
  have := h.ents.length_le
  rw [List.length_drop] at this
  have := h.le
  omega

/-- A log that agrees with a request, by term, is equal to the log of the sender that far. -/
theorem Agree.eq {g : Ghost} {l l' : List Entry} {m : Req} {k : Nat} (h : Agree l m k) (hl : Lin g l) (hl' : Lin g l')
    (hs : SliceOf l' m) (hk : k ≤ m.entries.length) : l.take (m.lastIdx + k) = l'.take (m.lastIdx + k) := by
  obtain ⟨h1, h2, h3⟩ := h
  by_cases h0 : m.lastIdx + k = 0
  · rw [h0, List.take_zero, List.take_zero]
  have hlen := hs.length
  have ha : l[m.lastIdx + k - 1]? = some (l[m.lastIdx + k - 1]'(by omega)) := List.getElem?_eq_getElem _
  have hb : l'[m.lastIdx + k - 1]? = some (l'[m.lastIdx + k - 1]'(by omega)) := List.getElem?_eq_getElem _
  have key : (l[m.lastIdx + k - 1]?).map Entry.term = (l'[m.lastIdx + k - 1]?).map Entry.term := by
    by_cases hk0 : k = 0
    · subst hk0
      rcases h2 with h2 | h2
      · omega
      · rcases hs.prev with h4 | h4
        · omega
        · exact h2.trans h4.symm
    · have e1 : m.lastIdx + k - 1 = m.lastIdx + (k - 1) := by omega
      rw [e1, h3 (k - 1) (by omega), hs.get (by omega)]
  rw [ha, hb, Option.map_some, Option.map_some, Option.some.injEq] at key
  have := hl.match hl' ha hb key
  have e2 : m.lastIdx + k - 1 + 1 = m.lastIdx + k := by omega
  rw [e2] at this
  exact this

theorem Led.mono {H : History} {t : Nat} {x : Int × Eff} (h : Led H t) : Led (H ++ [x]) t :=
  h.imp fun _ h => mem_snoc.2 (.inl h)

theorem SrvOk.mono {H : History} {g g' : Ghost} {i : Int} {c : PS} (h : SrvOk g i c) (hle : Ghost.Le H g g')
    (hl : c.role = .leader → g'.llog c.term = g.llog c.term)
    (hc : c.role = .candidate → c.vote = i → g'.clog c.term i = g.clog c.term i) : SrvOk g' i c :=
  ⟨fun hr => ⟨(h.cand hr).1, fun h2 => by rw [hc hr h2]; exact (h.cand hr).2 h2⟩,
   fun hr => by rw [hl hr]; exact h.lead hr, h.terms, h.lin.mono hle, h.sorted⟩

/-- Effects other than requests and elections do not concern the ghosts. -/
theorem GhostOk.frame {H : History} {g : Ghost} {i : Int} {e : Eff} (h : GhostOk H g)
    (hl : ∀ t, e ≠ .lead t) (hs : ∀ m, e = .send m → (m.type = .voteReq →
      m.lastIdx = (g.clog m.term i).length ∧ m.lastTerm = lastTermOf (g.clog m.term i)) ∧
      (m.type = .appendReq → SliceOf (g.llog m.term) m)) : GhostOk (H ++ [(i, e)]) g := by
  refine { none := ?_, elect := ?_, linL := h.linL, sortedL := h.sortedL, linC := h.linC, sortedC := h.sortedC,
           termsC := h.termsC, asks := ?_, slices := ?_ }
  · exact fun hn => h.none fun hl => hn hl.mono
  · intro t k hm
    rcases mem_snoc.1 hm with hm | hm
    · exact h.elect hm
    · cases hm; exact absurd rfl (hl t)
  · intro k m hm ht
    rcases mem_snoc.1 hm with hm | hm
    · exact h.asks hm ht
    · cases hm; exact (hs m rfl).1 ht
  · intro k m hm ht
    rcases mem_snoc.1 hm with hm | hm
    · exact h.slices hm ht
    · cases hm; exact (hs m rfl).2 ht

theorem upd_all {P : Int → PS → Prop} {ps : Int → PS} {i : Int} {c : PS} (h : ∀ k, k ≠ i → P k (ps k)) (hi : P i c) :
    ∀ k, P k (upd ps i c k) := fun k => by
  by_cases hk : k = i
  · subst hk; rw [upd_self]; exact hi
  · rw [upd_ne hk]; exact h k hk

/-- Point update. -/
def setAt {α : Type} (f : Nat → α) (t : Nat) (x : α) (u : Nat) : α := if u = t then x else f u
theorem setAt_self {α : Type} (f : Nat → α) (t : Nat) (x : α) : setAt f t x t = x := if_pos rfl
theorem setAt_ne {α : Type} {f : Nat → α} {t u : Nat} {x : α} (h : u ≠ t) : setAt f t x u = f u := if_neg h

/-- The log of the sender of a request a follower takes entries of. -/
theorem LogsOk.slice {S : List Int} {ps : Int → PS} {H : History} {g : Ghost} {i : Int} {m : Req} (h : LogsOk S ps H g)
    (hs : Sent H i .appendReq m) : SliceOf (g.llog m.term) m := by
  obtain ⟨⟨j, hj⟩, _, ht⟩ := hs
  exact h.ghost.slices hj ht

theorem getElem?_lt {α : Type} {l : List α} {k : Nat} {a : α} (h : l[k]? = some a) : k < l.length :=
  (List.getElem?_eq_some_iff.1 h).1

/-- The log of a follower that took an entry of a request is that of the leader. -/
theorem LogsOk.taken {S : List Int} {ps : Int → PS} {H : History} {g : Ghost} {i : Int} {m : Req} {k : Nat} {e : Entry}
    (h : LogsOk S ps H g) (hs : Sent H i .appendReq m) (ha : Agree (ps i).log m k) (he : m.entries[k]? = some e) :
    (ps i).log.take (m.lastIdx + k) ++ [e] = (g.llog m.term).take (m.lastIdx + k + 1) ∧
      (g.llog m.term)[m.lastIdx + k]? = some e := by
  have hsl := h.slice hs
  have hk := getElem?_lt he
  rw [hsl.get hk] at he
  rw [ha.eq (h.srv i).lin (h.ghost.linL _) hsl (by omega), take_snoc he]
  exact ⟨rfl, he⟩

theorem LogsOk.act {S : List Int} {ps : Int → PS} {H : History} {g : Ghost} {i : Int} {e : Eff} {c : PS} (hS : -1 ∉ S)
    (h : LogsOk S ps H g) (hi : i ∈ S) (ha : Act S H i (ps i) e c) :
    ∃ g', Ghost.Le H g g' ∧ (∀ t, g'.llog t = g.llog t ∨ c.role = .leader ∧ t = c.term) ∧
      LogsOk S (upd ps i c) (H ++ [(i, e)]) g' := by
  have hv := h.votes.act hS hi ha
  have hne : i ≠ -1 := by rintro rfl; exact hS hi
  have hsrv := h.srv i
  cases ha with
  | @raise t r h1 h2 =>
    refine ⟨g, .refl H g, fun _ => .inl rfl, hv, upd_all (fun k _ => h.srv k) ?_, h.ghost.frame (fun _ => nofun) (fun _ => nofun)⟩
    refine ⟨fun hr => ⟨fun e he => Nat.lt_of_le_of_lt (hsrv.terms e he) h1, fun h3 => absurd h3.symm hne⟩,
      fun hr => absurd hr h2, fun e he => Nat.le_of_lt (Nat.lt_of_le_of_lt (hsrv.terms e he) h1), hsrv.lin, hsrv.sorted⟩
  | self h1 h2 =>
    have hns : (i, .saveState (ps i).term i) ∉ H := fun hm => by
      rcases (h.votes.saved hm).2 rfl with h3 | h3
      · exact hne h3
      · exact hne (h3.trans h2)
    have hle : Ghost.Le H g { g with clog := fun a b => if a = (ps i).term ∧ b = i then (ps i).log else g.clog a b } := by
      refine ⟨fun _ => List.prefix_refl _, fun _ => rfl, fun {t k} hm => if_neg ?_⟩
      rintro ⟨rfl, rfl⟩
      exact hns hm
    refine ⟨_, hle, fun _ => .inl rfl, hv, upd_all (fun k hk => (h.srv k).mono hle (fun _ => rfl) fun _ _ => if_neg fun hh => hk hh.2) ?_, ?_⟩
    · refine ⟨fun hr => ⟨(hsrv.cand h1).1, fun _ => (if_pos ⟨rfl, rfl⟩).symm⟩, hsrv.lead, hsrv.terms, hsrv.lin.mono hle,
        hsrv.sorted⟩
    · have hg := h.ghost
      refine { none := ?_, elect := ?_, linL := fun t => (hg.linL t).mono hle, sortedL := hg.sortedL, linC := ?_,
               sortedC := ?_, termsC := ?_, asks := ?_, slices := ?_ }
      · exact fun hn => hg.none fun hl => hn hl.mono
      · intro t k hm
        rcases mem_snoc.1 hm with hm | hm
        · obtain ⟨h3, h4⟩ := hg.elect hm
          refine ⟨?_, h4⟩
          rw [h3]
          refine (if_neg ?_).symm
          rintro ⟨rfl, rfl⟩
          obtain ⟨V, hq, hvv⟩ := h.votes.led hm
          obtain ⟨v, hvm⟩ : ∃ v, v ∈ V := by
            cases V with
            | nil => have := hq.2.2; simp at this
            | cons v V => exact ⟨v, List.mem_cons_self⟩
          exact hns (h.votes.self (hvv v hvm) hne)
        · cases hm
      · intro t k
        by_cases hh : t = (ps i).term ∧ k = i
        · simp only [if_pos hh]; exact hsrv.lin.mono hle
        · simp only [if_neg hh]; exact (hg.linC t k).mono hle
      · intro t k
        by_cases hh : t = (ps i).term ∧ k = i
        · simp only [if_pos hh]; exact hsrv.sorted
        · simp only [if_neg hh]; exact hg.sortedC t k
      · intro t k
        by_cases hh : t = (ps i).term ∧ k = i
        · simp only [if_pos hh]; rw [hh.1]; exact (hsrv.cand h1).1
        · simp only [if_neg hh]; exact hg.termsC t k
      · intro k m hm ht
        rcases mem_snoc.1 hm with hm | hm
        · rw [hle.clog (h.votes.asked hm ht)]; exact hg.asks hm ht
        · cases hm
      · intro k m hm ht
        rcases mem_snoc.1 hm with hm | hm
        · exact hg.slices hm ht
        · cases hm
  | @grant m hs ht hvv hu =>
    obtain ⟨⟨j, hj⟩, hd, hty⟩ := hs
    obtain ⟨h4, h5⟩ := h.votes.sent hj (by rw [hty]; nofun)
    refine ⟨g, .refl H g, fun _ => .inl rfl, hv, upd_all (fun k _ => h.srv k) ?_, h.ghost.frame (fun _ => nofun) (fun _ => nofun)⟩
    refine ⟨fun hr => ⟨(hsrv.cand hr).1, fun h3 => ?_⟩, hsrv.lead, hsrv.terms, hsrv.lin, hsrv.sorted⟩
    have : m.src = i := h3
    exact absurd (hd.trans (this.symm.trans h4)) h5
  | ask h1 h2 h3 h4 h5 h6 h7 h8 =>
    refine ⟨g, .refl H g, fun _ => .inl rfl, hv, upd_all (fun k _ => h.srv k) hsrv, h.ghost.frame (fun _ => nofun) ?_⟩
    intro m' hm
    cases hm
    refine ⟨fun _ => ?_, fun h9 => by rw [h1] at h9; cases h9⟩
    rw [h7, h8, h4, (hsrv.cand h6).2 h5]; exact ⟨rfl, rfl⟩
  | @lead V h1 h2 h3 h4 h5 =>
    obtain ⟨f1, f2, f3, f4⟩ := h.votes.fresh hS hi h1 ⟨h2, h3, h4⟩ h5
    have hnone : g.llog (ps i).term = [] := h.ghost.none fun ⟨j, hj⟩ => f2 j hj
    have hcl := (hsrv.cand f4).2 f3
    have hle : Ghost.Le H g { g with llog := setAt g.llog (ps i).term (ps i).log, elog := setAt g.elog (ps i).term (ps i).log } := by
      refine ⟨fun t => ?_, fun {t} hl => setAt_ne ?_, fun _ => rfl⟩
      · by_cases ht : t = (ps i).term
        · subst ht; rw [hnone]; exact List.nil_prefix
        · simp only [setAt_ne ht]; exact List.prefix_refl _
      · rintro rfl; obtain ⟨j, hj⟩ := hl; exact f2 j hj
    refine ⟨_, hle, fun t => (Decidable.em (t = (ps i).term)).elim (fun ht => .inr ⟨rfl, ht⟩) fun ht => .inl (setAt_ne ht), hv,
      upd_all (fun k hk => (h.srv k).mono hle (fun hr => setAt_ne ?_) fun _ _ => rfl) ?_, ?_⟩
    · intro ht
      have := (h.votes.leader hr).1
      rw [ht] at this
      exact f2 k this
    · refine ⟨nofun, fun _ => (setAt_self _ _ _).symm, hsrv.terms, hsrv.lin.mono hle, hsrv.sorted⟩
    · have hg := h.ghost
      refine { none := ?_, elect := ?_, linL := ?_, sortedL := ?_, linC := fun t k => (hg.linC t k).mono hle,
               sortedC := hg.sortedC, termsC := hg.termsC, asks := ?_, slices := ?_ }
      · intro t hn
        by_cases ht : t = (ps i).term
        · subst ht; exact absurd ⟨i, mem_snoc.2 (.inr rfl)⟩ hn
        · simp only [setAt_ne ht]; exact hg.none fun hl => hn hl.mono
      · intro t k hm
        rcases mem_snoc.1 hm with hm | hm
        · have ht : t ≠ (ps i).term := by rintro rfl; exact f2 k hm
          simp only [setAt_ne ht]; exact hg.elect hm
        · cases hm
          simp only [setAt_self]
          refine ⟨hcl, List.prefix_refl _, (hsrv.cand f4).1, ?_⟩
          rw [List.drop_length]; nofun
      · intro t
        by_cases ht : t = (ps i).term
        · subst ht; simp only [setAt_self]; exact hsrv.lin.mono hle
        · simp only [setAt_ne ht]; exact (hg.linL t).mono hle
      · intro t
        by_cases ht : t = (ps i).term
        · subst ht; simp only [setAt_self]; exact hsrv.sorted
        · simp only [setAt_ne ht]; exact hg.sortedL t
      · intro k m hm ht
        rcases mem_snoc.1 hm with hm | hm
        · exact hg.asks hm ht
        · cases hm
      · intro k m hm ht
        rcases mem_snoc.1 hm with hm | hm
        · exact (hg.slices hm ht).mono (hle.llog _)
        · cases hm
  | @appendOwn e h1 h2 =>
    have hl := hsrv.lead h1
    have hlead := (h.votes.leader h1).1
    have hle : Ghost.Le H g { g with llog := setAt g.llog (ps i).term ((ps i).log ++ [e]) } := by
      refine ⟨fun t => ?_, fun _ => rfl, fun _ => rfl⟩
      by_cases ht : t = (ps i).term
      · subst ht; simp only [setAt_self]; rw [← hl]; exact List.prefix_append _ _
      · simp only [setAt_ne ht]; exact List.prefix_refl _
    have hlin : Lin { g with llog := setAt g.llog (ps i).term ((ps i).log ++ [e]) } ((ps i).log ++ [e]) := by
      refine (hsrv.lin.mono hle).snoc ?_
      rw [h2]; simp only [setAt_self]; exact List.prefix_refl _
    have hsort : Sorted ((ps i).log ++ [e]) := hsrv.sorted.snoc fun x hx => by rw [h2]; exact hsrv.terms x hx
    refine ⟨_, hle, fun t => (Decidable.em (t = (ps i).term)).elim (fun ht => .inr ⟨h1, ht⟩) fun ht => .inl (setAt_ne ht), hv,
      upd_all (fun k hk => (h.srv k).mono hle (fun hr => setAt_ne ?_) fun _ _ => rfl) ?_, ?_⟩
    · intro ht
      have := (h.votes.leader hr).1
      rw [ht] at this
      exact hk (h.votes.one_leader hS this hlead)
    · refine ⟨fun hr => ?_, fun _ => (setAt_self _ _ _).symm, ?_, hlin, hsort⟩
      · rw [show _ = Role.candidate from hr] at h1; cases h1
      · intro x hx
        rcases List.mem_append.1 hx with hx | hx
        · exact hsrv.terms x hx
        · rw [List.mem_singleton] at hx; subst hx; exact Nat.le_of_eq h2
    · have hg := h.ghost
      refine { none := ?_, elect := ?_, linL := ?_, sortedL := ?_, linC := fun t k => (hg.linC t k).mono hle,
               sortedC := hg.sortedC, termsC := hg.termsC, asks := ?_, slices := ?_ }
      · intro t hn
        have ht : t ≠ (ps i).term := by rintro rfl; exact hn ⟨i, mem_snoc.2 (.inl hlead)⟩
        simp only [setAt_ne ht]; exact hg.none fun hl => hn hl.mono
      · intro t k hm
        rcases mem_snoc.1 hm with hm | hm
        · by_cases ht : t = (ps i).term
          · subst ht
            simp only [setAt_self]
            obtain ⟨h3, h4, h5, h6⟩ := hg.elect hm
            rw [← hl] at h4 h6
            refine ⟨h3, h4.trans (List.prefix_append _ _), h5, ?_⟩
            rw [List.drop_append_of_le_length h4.length_le]
            intro x hx
            rcases List.mem_append.1 hx with hx | hx
            · exact h6 x hx
            · rw [List.mem_singleton] at hx; subst hx; exact h2
          · simp only [setAt_ne ht]; exact hg.elect hm
        · cases hm
      · intro t
        by_cases ht : t = (ps i).term
        · subst ht; simp only [setAt_self]; exact hlin
        · simp only [setAt_ne ht]; exact (hg.linL t).mono hle
      · intro t
        by_cases ht : t = (ps i).term
        · subst ht; simp only [setAt_self]; exact hsort
        · simp only [setAt_ne ht]; exact hg.sortedL t
      · intro k m hm ht
        rcases mem_snoc.1 hm with hm | hm
        · exact hg.asks hm ht
        · cases hm
      · intro k m hm ht
        rcases mem_snoc.1 hm with hm | hm
        · exact (hg.slices hm ht).mono (hle.llog _)
        · cases hm
  | @append m k e hs ht hr hag he hlen =>
    obtain ⟨h1, h2⟩ := h.taken hs hag he
    rw [List.take_of_length_le (by omega)] at h1
    refine ⟨g, .refl H g, fun _ => .inl rfl, hv, upd_all (fun k _ => h.srv k) ?_, h.ghost.frame (fun _ => nofun) (fun _ => nofun)⟩
    have hp : (ps i).log ++ [e] <+: g.llog m.term := by rw [h1]; exact List.take_prefix _ _
    refine ⟨fun hr' => ?_, fun hr' => ?_, ?_, (h.ghost.linL _).prefix hp, (h.ghost.sortedL _).prefix hp⟩
    · rw [show _ = Role.candidate from hr'] at hr; cases hr
    · rw [show _ = Role.leader from hr'] at hr; cases hr
    · intro x hx
      have := h.ghost.terms m.term x (hp.subset hx)
      rw [ht] at this; exact this
  | @write m k e x hs ht hr hag he hx hxe =>
    obtain ⟨h1, h2⟩ := h.taken hs hag he
    refine ⟨g, .refl H g, fun _ => .inl rfl, hv, upd_all (fun k _ => h.srv k) ?_, h.ghost.frame (fun _ => nofun) (fun _ => nofun)⟩
    have hp : (ps i).log.take (m.lastIdx + k) ++ [e] <+: g.llog m.term := by rw [h1]; exact List.take_prefix _ _
    refine ⟨fun hr' => ?_, fun hr' => ?_, ?_, (h.ghost.linL _).prefix hp, (h.ghost.sortedL _).prefix hp⟩
    · rw [show _ = Role.candidate from hr'] at hr; cases hr
    · rw [show _ = Role.leader from hr'] at hr; cases hr
    · intro x hx
      have := h.ghost.terms m.term x (hp.subset hx)
      rw [ht] at this; exact this
  | replicate h1 h2 h3 h4 h5 h6 h7 h8 _ =>
    refine ⟨g, .refl H g, fun _ => .inl rfl, hv, upd_all (fun k _ => h.srv k) hsrv, h.ghost.frame (fun _ => nofun) ?_⟩
    intro m' hm
    cases hm
    refine ⟨fun h9 => (by rw [h1] at h9; cases h9), fun _ => ?_⟩
    rw [h4, ← hsrv.lead h5]
    exact ⟨h6, h7, h8⟩
  | advance =>
    exact ⟨g, .refl H g, fun _ => .inl rfl, hv,
      upd_all (fun k _ => h.srv k) ⟨hsrv.cand, hsrv.lead, hsrv.terms, hsrv.lin, hsrv.sorted⟩,
      h.ghost.frame (fun _ => nofun) (fun _ => nofun)⟩
  | follow =>
    exact ⟨g, .refl H g, fun _ => .inl rfl, hv,
      upd_all (fun k _ => h.srv k) ⟨hsrv.cand, hsrv.lead, hsrv.terms, hsrv.lin, hsrv.sorted⟩,
      h.ghost.frame (fun _ => nofun) (fun _ => nofun)⟩
  | apply =>
    exact ⟨g, .refl H g, fun _ => .inl rfl, hv, upd_all (fun k _ => h.srv k) hsrv,
      h.ghost.frame (fun _ => nofun) (fun _ => nofun)⟩
  | voted => exact ⟨g, .refl H g, fun _ => .inl rfl, hv, upd_all (fun k _ => h.srv k) hsrv, h.ghost.frame (fun _ => nofun) (fun _ => nofun)⟩
  | stored => exact ⟨g, .refl H g, fun _ => .inl rfl, hv, upd_all (fun k _ => h.srv k) hsrv, h.ghost.frame (fun _ => nofun) (fun _ => nofun)⟩
  | other h1 =>
    refine ⟨g, .refl H g, fun _ => .inl rfl, hv, upd_all (fun k _ => h.srv k) hsrv, h.ghost.frame (fun _ he => ?_) (fun m he => ?_)⟩
    · subst he; cases h1
    · subst he
      have : m.type = .prevoteReq := h1
      rw [this]; exact ⟨nofun, nofun⟩

theorem LogsOk.quiet {S : List Int} {ps : Int → PS} {H : History} {g : Ghost} {i : Int} {c : PS}
    (h : LogsOk S ps H g) (ha : Quiet H i (ps i) c) : LogsOk S (upd ps i c) H g := by
  obtain ⟨q1, q2, q3, q4, q5, _⟩ := ha.frame
  refine ⟨h.votes.quiet ha, upd_all (fun k _ => h.srv k) ?_, h.ghost⟩
  have hsrv := h.srv i
  refine ⟨fun hr => ?_, fun hr => ?_, ?_, ?_, ?_⟩
  · rcases q5 with q | q
    · rw [q] at hr; cases hr
    · rw [q] at hr; rw [q1, q2, q3]; exact hsrv.cand hr
  · rcases q5 with q | q
    · rw [q] at hr; cases hr
    · rw [q] at hr; rw [q1, q3]; exact hsrv.lead hr
  · rw [q1, q3]; exact hsrv.terms
  · rw [q3]; exact hsrv.lin
  · rw [q3]; exact hsrv.sorted

end Cs.Raft
