import Verif.Cluster.Logs

/-!
# What a majority stored is in the log of every later leader
-/

namespace Cs.Raft
open Cs

/-- Server `v` has confirmed, in term `t`, to have the first `n` entries of the leader of the term, or is that leader. -/
def Holds (H : History) (g : Ghost) (v : Int) (t n : Nat) : Prop :=
  (∃ r, (v, .reply r) ∈ H ∧ r.type = .appendResp ∧ r.accepted = true ∧ r.term = t ∧ n < r.nextIdx) ∨
  (v, .lead t) ∈ H ∧ n ≤ (g.llog t).length

/-- A leader of term `u` that was elected without the first `n` entries of the leader of term `t`. -/
def Dev (H : History) (g : Ghost) (t n u : Nat) : Prop := t < u ∧ Led H u ∧ ¬ (g.llog t).take n <+: g.elog u

/-- The leader of term `t` made its entry `n` itself. -/
def Own (g : Ghost) (t n : Nat) : Prop := 0 < n ∧ ((g.llog t)[n - 1]?).map Entry.term = some t

structure SafeOk (S : List Int) (ps : Int → PS) (H : History) (g : Ghost) : Prop where
  logs : LogsOk S ps H g
  keep : ∀ {k t n}, Holds H g k t n → n ≤ (g.llog t).length ∧ t ≤ (ps k).term ∧
    ((g.llog t).take n <+: (ps k).log ∨ ∃ u, u ≤ (ps k).term ∧ Dev H g t n u)
  voted : ∀ {k t' v t n}, (k, .saveState t' v) ∈ H → v ≠ -1 → Holds H g k t n → t < t' → Own g t n →
    (g.llog t).take n <+: g.clog t' v ∨ (∃ u, u < t' ∧ Dev H g t n u) ∨ Led H t'
  led : ∀ {i t'}, (i, .lead t') ∈ H → ∃ V, Quorum S V ∧ ∀ v ∈ V, (v, .saveState t' i) ∈ H ∧
    ∀ t n, t < t' → Holds H g v t n → Own g t n → (g.llog t).take n <+: g.elog t' ∨ ∃ u, u < t' ∧ Dev H g t n u
  applied : ∀ {i k x}, (i, .commit k x) ∈ H → 0 < k ∧ (g.llog x.term)[k - 1]? = some x

section
variable {S : List Int} {ps : Int → PS} {H : History} {g g' : Ghost} {i : Int} {e : Eff} {c : PS} {t n : Nat}

theorem Ghost.Le.take (h : Ghost.Le H g g') (hn : n ≤ (g.llog t).length) : (g'.llog t).take n = (g.llog t).take n :=
  (take_of_prefix (h.llog t) hn).symm

theorem Ghost.Le.own (h : Ghost.Le H g g') (hn : n ≤ (g.llog t).length) (ho : Own g' t n) : Own g t n := by
  obtain ⟨h1, h2⟩ := ho
  refine ⟨h1, ?_⟩
  rw [← get_of_prefix' (h.llog t) (by omega)]; exact h2

theorem Ghost.Le.dev (h : Ghost.Le H g g') (hn : n ≤ (g.llog t).length) {x : Int × Eff} {u : Nat} (hd : Dev H g t n u) :
    Dev (H ++ [x]) g' t n u := by
  obtain ⟨h1, h2, h3⟩ := hd
  refine ⟨h1, h2.mono, ?_⟩
  rw [h.take hn, h.elog h2]; exact h3

/-- What a server newly confirms, it confirms in its term and has in its log. -/
theorem Holds.new (hS : -1 ∉ S) (h : LogsOk S ps H g) (hle : Ghost.Le H g g')
    (hch : ∀ t, g'.llog t = g.llog t ∨ c.role = .leader ∧ t = c.term)
    (h' : LogsOk S (upd ps i c) (H ++ [(i, e)]) g') (ha : Act S H i (ps i) e c) {v : Int}
    (hh : Holds (H ++ [(i, e)]) g' v t n) :
    Holds H g v t n ∨ v = i ∧ t = c.term ∧ n ≤ (g'.llog t).length ∧ (g'.llog t).take n <+: c.log := by
  have hlead : (v, .lead t) ∈ H ++ [(i, e)] → n ≤ (g'.llog t).length → c.role = .leader → t = c.term →
      v = i ∧ t = c.term ∧ n ≤ (g'.llog t).length ∧ (g'.llog t).take n <+: c.log := by
    intro h1 h2 h3 h4
    have h5 := (h'.srv i).lead (by rw [upd_self]; exact h3)
    have h6 := (h'.votes.leader (i := i) (by rw [upd_self]; exact h3)).1
    rw [upd_self] at h5 h6
    refine ⟨h'.votes.one_leader hS h1 (h4 ▸ h6), h4, h2, ?_⟩
    rw [h5, h4]; exact List.take_prefix _ _
  rcases hh with ⟨r, hm, h1, h2, h3, h4⟩ | ⟨hm, h1⟩
  · rcases mem_snoc.1 hm with hm | hm
    · exact .inl (.inl ⟨r, hm, h1, h2, h3, h4⟩)
    · cases hm
      right
      cases ha with
      | voted h5 => rw [h5] at h1; cases h1
      | other h5 => exact absurd h1 (h5 h2).2
      | stored h5 h6 h7 h8 =>
        have ht : t = (ps i).term := h3.symm.trans h7
        rcases h8 with ⟨m, hs, h9, h10, h11⟩ | ⟨h9, h10⟩
        · have hsl := (h.slice hs).mono (hle.llog _)
          have hl := (h'.srv i).lin
          rw [upd_self] at hl
          have heq := h10.eq hl (h'.ghost.linL _) hsl (Nat.le_refl _)
          have hlen := hsl.length
          rw [h9, ← ht] at heq hlen
          refine ⟨rfl, ht, by omega, ?_⟩
          have : (g'.llog t).take n = ((g'.llog t).take (m.lastIdx + m.entries.length)).take n := by
            rw [List.take_take]; congr 1; omega
          rw [this, ← heq, List.take_take]
          exact List.take_prefix _ _
        · have h11 := (h'.srv i).lead (by rw [upd_self]; exact h9)
          rw [upd_self, ← ht] at h11
          refine ⟨rfl, ht, ?_, ?_⟩
          · rw [← h11]; omega
          · rw [h11]; exact List.take_prefix _ _
  · rcases mem_snoc.1 hm with hm' | hm'
    · rcases hch t with h2 | ⟨h2, h3⟩
      · rw [h2] at h1; exact .inl (.inr ⟨hm', h1⟩)
      · exact .inr (hlead hm h1 h2 h3)
    · cases hm'
      right
      cases ha with
      | lead => exact hlead hm h1 rfl rfl
      | other h5 => cases h5

/-- The log of a server after an effect. -/
theorem Act.log_keep (h : LogsOk S ps H g) (ha : Act S H i (ps i) e c) (hn : n ≤ (g.llog t).length)
    (ht : t ≤ (ps i).term) (hp : (g.llog t).take n <+: (ps i).log) :
    (g.llog t).take n <+: c.log ∨ Dev H g t n c.term := by
  cases ha with
  | appendOwn => exact .inl (hp.trans (List.prefix_append _ _))
  | append => exact .inl (hp.trans (List.prefix_append _ _))
  | @write m k e x hs hmt hr hag he hx hxe =>
    by_cases hk : n ≤ m.lastIdx + k
    · left
      refine List.IsPrefix.trans ?_ (List.prefix_append _ _)
      exact prefix_of_prefix hp (List.take_prefix _ _) (by
        have := getElem?_lt hx
        simp only [List.length_take]; omega)
    · right
      obtain ⟨_, h2⟩ := h.taken hs hag he
      rw [hmt] at h2
      have hlt : m.lastIdx + k < ((g.llog t).take n).length := by rw [List.length_take]; omega
      have h3 := get_of_prefix' hp hlt
      rw [hx] at h3
      obtain ⟨⟨j, hj⟩, _, hty⟩ := hs
      have hled := h.votes.replicated hj hty
      rw [hmt] at hled
      have contra : ∀ l : List Entry, (g.llog t).take n <+: l → l[m.lastIdx + k]? = some e → False := by
        intro l hl h4
        rw [get_of_prefix' hl hlt, ← h3] at h4
        cases h4
        exact hxe rfl
      refine ⟨?_, ⟨j, hled⟩, fun hpe => contra _ (hpe.trans (h.ghost.elect hled).2.1) h2⟩
      rcases Nat.lt_or_eq_of_le ht with h4 | h4
      · exact h4
      · subst h4
        exact (contra _ (List.take_prefix _ _) h2).elim
  | _ => exact .inl hp

/-- A candidate whose log is at least as up to date as one that has entry `n` of the leader of term `t` has it, too. -/
theorem upToDate_has (h : GhostOk H g) {l k : List Entry} {t' : Nat} (hl : Lin g l) (hls : Sorted l) (hk : Lin g k)
    (hkt : ∀ x ∈ k, x.term < t')
    (hu : lastTermOf l < lastTermOf k ∨ lastTermOf k = lastTermOf l ∧ l.length ≤ k.length) (ho : Own g t n)
    (hn : n ≤ (g.llog t).length) (hp : (g.llog t).take n <+: l) :
    (g.llog t).take n <+: k ∨ ∃ u, u < t' ∧ Dev H g t n u := by
  obtain ⟨h0, h1⟩ := ho
  obtain ⟨x, hx, hxt⟩ := Option.map_eq_some_iff.1 h1
  have hlx : l[n - 1]? = some x := by
    refine get_of_prefix hp ?_
    rw [List.getElem?_take_of_lt (by omega)]; exact hx
  have hlen : n ≤ l.length := by have := getElem?_lt hlx; omega
  have hlt : t ≤ lastTermOf l := by
    rw [← hxt]; exact hls.le_last (List.mem_of_getElem? hlx)
  have hlast : ∀ m : List Entry, 0 < m.length → ∃ y, m[m.length - 1]? = some y ∧ lastTermOf m = y.term ∧ y ∈ m := by
    intro m hm
    have hy : m[m.length - 1]? = some (m[m.length - 1]'(by omega)) := List.getElem?_eq_getElem _
    exact ⟨_, hy, lastTermOf_get hy, List.mem_of_getElem? hy⟩
  obtain ⟨a, ha1, ha2, ha3⟩ := hlast l (by omega)
  rcases hu with hu | ⟨hu1, hu2⟩
  · have hkpos : 0 < k.length := by
      cases k with
      | nil => simp [lastTermOf] at hu
      | cons b k => simp
    obtain ⟨b, hb1, hb2, hb3⟩ := hlast k hkpos
    have hbt := hkt b hb3
    have hkp := hk _ b hb1
    rw [show k.length - 1 + 1 = k.length by omega, List.take_length] at hkp
    have hled : Led H b.term := by
      by_cases hl : Led H b.term
      · exact hl
      · rw [h.none hl] at hkp
        have : k.length ≤ 0 := hkp.length_le
        omega
    by_cases hd : (g.llog t).take n <+: g.elog b.term
    · left
      obtain ⟨j, hj⟩ := hled
      have hp2 := hd.trans (h.elect hj).2.1
      by_cases hkn : n ≤ k.length
      · exact prefix_of_prefix hp2 hkp (by rw [List.length_take]; omega)
      · exfalso
        have h3 : (g.llog b.term)[k.length - 1]? = some b := get_of_prefix hkp hb1
        rw [get_of_prefix' hp2 (by rw [List.length_take]; omega), List.getElem?_take_of_lt (by omega)] at h3
        have := h.terms t b (List.mem_of_getElem? h3)
        omega
    · exact .inr ⟨b.term, hbt, by omega, hled, hd⟩
  · left
    obtain ⟨b, hb1, hb2, hb3⟩ := hlast k (by omega)
    have hkp := hk _ b hb1
    have hlp := hl _ a ha1
    rw [show k.length - 1 + 1 = k.length by omega, List.take_length] at hkp
    rw [show l.length - 1 + 1 = l.length by omega, List.take_length, ← ha2, ← hu1, hb2] at hlp
    exact hp.trans (prefix_of_prefix hlp hkp hu2)

theorem SafeOk.applied_act (h : SafeOk S ps H g) (hle : Ghost.Le H g g') (ha : Act S H i (ps i) e c) {j : Int} {k : Nat}
    {x : Entry} (hm : (j, .commit k x) ∈ H ++ [(i, e)]) : 0 < k ∧ (g'.llog x.term)[k - 1]? = some x := by
  rcases mem_snoc.1 hm with hm | hm
  · exact ⟨(h.applied hm).1, get_of_prefix (hle.llog _) (h.applied hm).2⟩
  · cases hm
    cases ha with
    | apply h1 h2 =>
      have := (h.logs.srv _).lin _ _ h2
      refine ⟨by omega, get_of_prefix (hle.llog _) (get_of_prefix this ?_)⟩
      rw [List.getElem?_take, if_pos (by omega)]
      exact h2
    | other hn => cases hn

theorem SafeOk.act (hS : -1 ∉ S) (h : SafeOk S ps H g) (hi : i ∈ S) (ha : Act S H i (ps i) e c) :
    ∃ g', Ghost.Le H g g' ∧ SafeOk S (upd ps i c) (H ++ [(i, e)]) g' := by
  obtain ⟨g', hle, hch, h'⟩ := h.logs.act hS hi ha
  have hne : i ≠ -1 := by rintro rfl; exact hS hi
  have hnew : ∀ {v t n}, Holds (H ++ [(i, e)]) g' v t n → Holds H g v t n ∨
      v = i ∧ t = c.term ∧ n ≤ (g'.llog t).length ∧ (g'.llog t).take n <+: c.log :=
    fun hh => Holds.new hS h.logs hle hch h' ha hh
  have keep : ∀ {k t n}, Holds (H ++ [(i, e)]) g' k t n → n ≤ (g'.llog t).length ∧ t ≤ (upd ps i c k).term ∧
      ((g'.llog t).take n <+: (upd ps i c k).log ∨ ∃ u, u ≤ (upd ps i c k).term ∧ Dev (H ++ [(i, e)]) g' t n u) := by
    intro k t n hh
    rcases hnew hh with hh | ⟨rfl, rfl, h1, h2⟩
    · obtain ⟨h1, h2, h3⟩ := h.keep hh
      refine ⟨Nat.le_trans h1 (hle.llog t).length_le, ?_⟩
      rw [hle.take h1]
      by_cases hk : k = i
      · subst hk
        rw [upd_self]
        refine ⟨Nat.le_trans h2 ha.term_le, ?_⟩
        rcases h3 with h3 | ⟨u, h4, h5⟩
        · rcases ha.log_keep h.logs h1 h2 h3 with h4 | h4
          · exact .inl h4
          · exact .inr ⟨_, Nat.le_refl _, hle.dev h1 h4⟩
        · exact .inr ⟨u, Nat.le_trans h4 ha.term_le, hle.dev h1 h5⟩
      · rw [upd_ne hk]
        exact ⟨h2, h3.imp id fun ⟨u, h4, h5⟩ => ⟨u, h4, hle.dev h1 h5⟩⟩
    · rw [upd_self]
      exact ⟨h1, Nat.le_refl _, .inl h2⟩
  refine ⟨g', hle, ⟨h', keep, ?_, ?_, fun hm => SafeOk.applied_act h hle ha hm⟩⟩
  · intro k t' v t n hsv hv hh hlt ho
    rcases hnew hh with hh | ⟨rfl, rfl, h1, h2⟩
    · obtain ⟨k1, k2, k3⟩ := h.keep hh
      have hog := hle.own k1 ho
      rcases mem_snoc.1 hsv with hsv | hsv
      · rcases h.voted hsv hv hh hlt hog with h1 | ⟨u, h1, h2⟩ | h1
        · left; rw [hle.take k1, hle.clog (h.logs.votes.self hsv hv)]; exact h1
        · exact .inr (.inl ⟨u, h1, hle.dev k1 h2⟩)
        · exact .inr (.inr h1.mono)
      · cases hsv
        have hdone : (g.llog t).take n <+: (ps i).log → t' = (ps i).term → c.log = (ps i).log →
            c.term = (ps i).term → c.vote = v →
            (lastTermOf c.log < lastTermOf (g'.clog t' v) ∨
              lastTermOf (g'.clog t' v) = lastTermOf c.log ∧ c.log.length ≤ (g'.clog t' v).length) →
            (g'.llog t).take n <+: g'.clog t' v ∨ (∃ u, u < t' ∧ Dev (H ++ [(i, .saveState t' v)]) g' t n u) ∨
              Led (H ++ [(i, .saveState t' v)]) t' := by
          intro h1 h2 h3 h4 h5 h6
          have hl := (h'.srv i).lin
          have hs := (h'.srv i).sorted
          rw [upd_self] at hl hs
          rcases upToDate_has h'.ghost hl hs (h'.ghost.linC t' v) (h'.ghost.termsC t' v) h6 ho
            (Nat.le_trans k1 (hle.llog t).length_le) (by rw [hle.take k1, h3]; exact h1) with h7 | h7
          · exact .inl h7
          · exact .inr (.inl h7)
        have hdev : t' = (ps i).term → (∃ u, u ≤ (ps i).term ∧ Dev H g t n u) →
            (∃ u, u < t' ∧ Dev (H ++ [(i, .saveState t' v)]) g' t n u) ∨ Led (H ++ [(i, .saveState t' v)]) t' := by
          rintro h1 ⟨u, h2, h3⟩
          by_cases hu : u < t'
          · exact .inl ⟨u, hu, hle.dev k1 h3⟩
          · have : u = t' := by omega
            subst this
            exact .inr h3.2.1.mono
        cases ha with
        | raise => exact absurd rfl hv
        | self h1 h2 =>
          rcases k3 with k3 | k3
          · left
            have := ((h'.srv i).cand (by rw [upd_self]; exact h1)).2 (by rw [upd_self])
            rw [upd_self] at this
            rw [hle.take k1, ← this]; exact k3
          · exact .inr (hdev rfl k3)
        | @grant m hs hmt hvv hu =>
          rcases k3 with k3 | k3
          · refine hdone k3 rfl rfl rfl rfl ?_
            obtain ⟨⟨j, hj⟩, _, hty⟩ := hs
            obtain ⟨h4, _⟩ := h.logs.votes.sent hj (by rw [hty]; nofun)
            obtain ⟨h5, h6⟩ := h'.ghost.asks (mem_snoc.2 (.inl hj)) hty
            rw [← h4, hmt] at h5 h6
            rw [← h5, ← h6]; exact hu
          · exact .inr (hdev rfl k3)
        | other h1 => cases h1
    · have := (h'.votes.saved hsv).1
      rw [upd_self] at this
      omega
  · intro k t' hm
    have hno : ∀ {v t n}, (v, .saveState t' k) ∈ H → t < t' → Holds (H ++ [(i, e)]) g' v t n → Holds H g v t n := by
      intro v t n h1 h2 hh
      rcases hnew hh with hh | ⟨rfl, rfl, _, _⟩
      · exact hh
      · have := (h'.votes.saved (mem_snoc.2 (.inl h1))).1
        rw [upd_self] at this
        omega
    rcases mem_snoc.1 hm with hm' | hm'
    · obtain ⟨V, hq, hV⟩ := h.led hm'
      refine ⟨V, hq, fun v hv => ⟨mem_snoc.2 (.inl (hV v hv).1), fun t n hlt hh ho => ?_⟩⟩
      have hh := hno (hV v hv).1 hlt hh
      obtain ⟨k1, _, _⟩ := h.keep hh
      rw [hle.take k1, hle.elog ⟨k, hm'⟩]
      exact ((hV v hv).2 t n hlt hh (hle.own k1 ho)).imp id fun ⟨u, h1, h2⟩ => ⟨u, h1, hle.dev k1 h2⟩
    · cases hm'
      cases ha with
      | @lead V h1 h2 h3 h4 h5 =>
        obtain ⟨f1, f2, f3, f4⟩ := h.logs.votes.fresh hS hi h1 ⟨h2, h3, h4⟩ h5
        refine ⟨V, ⟨h2, h3, h4⟩, fun v hv => ⟨mem_snoc.2 (.inl (f1 v hv)), fun t n hlt hh ho => ?_⟩⟩
        have hh := hno (f1 v hv) hlt hh
        obtain ⟨k1, _, _⟩ := h.keep hh
        rcases h.voted (f1 v hv) hne hh hlt (hle.own k1 ho) with h6 | ⟨u, h6, h7⟩ | ⟨j, h6⟩
        · left
          rw [hle.take k1, (h'.ghost.elect hm).1, hle.clog (h.logs.votes.self (f1 v hv) hne)]
          exact h6
        · exact .inr ⟨u, h6, hle.dev k1 h7⟩
        · exact absurd h6 (f2 j)
      | other h1 => cases h1

theorem SafeOk.quiet (h : SafeOk S ps H g) (ha : Quiet H i (ps i) c) : SafeOk S (upd ps i c) H g := by
  obtain ⟨q1, q2, q3, q4, q5, _⟩ := ha.frame
  refine ⟨h.logs.quiet ha, fun {k t n} hh => ?_, h.voted, h.led, h.applied⟩
  have := h.keep hh
  by_cases hk : k = i
  · subst hk; rw [upd_self, q1, q3]; exact this
  · rw [upd_ne hk]; exact this

/-- What a majority confirmed in its own term is in the log of every later leader, from its election on. -/
theorem SafeOk.complete (h : SafeOk S ps H g) {V : List Int} (hq : Quorum S V) (hV : ∀ v ∈ V, Holds H g v t n)
    (ho : Own g t n) : ∀ u, t < u → Led H u → (g.llog t).take n <+: g.elog u := by
  intro u
  induction u using Nat.strongRecOn with
  | ind u ih =>
    rintro hu ⟨i, hi⟩
    obtain ⟨W, hw, hW⟩ := h.led hi
    obtain ⟨x, xv, xw⟩ := hq.inter hw
    rcases (hW x xw).2 t n hu (hV x xv) ho with h1 | ⟨u', h1, h2, h3, h4⟩
    · exact h1
    · exact absurd (ih u' h1 h2 h3) h4

end

/-- Before anything happened. -/
theorem SafeOk.init (S : List Int) (ps : Int → PS) (h : ∀ i, ps i = {}) : SafeOk S ps [] {} := by
  have e1 : ∀ i, (ps i).role = .follower := fun i => by rw [h i]
  have e2 : ∀ i, (ps i).vote = -1 := fun i => by rw [h i]
  have e3 : ∀ i, (ps i).log = [] := fun i => by rw [h i]
  have e4 : ∀ i, (ps i).counting = false := fun i => by rw [h i]
  refine { logs := { votes := ?_, srv := ?_, ghost := ?_ }, keep := ?_, voted := nofun, led := nofun, applied := nofun }
  · refine { mem := nofun, saved := nofun, vote := fun hv => absurd (e2 _) hv, uniq := nofun, granted := nofun,
             self := nofun, sent := nofun, asked := nofun, led := nofun, ledTerm := nofun,
             leader := fun hr => (by rw [e1] at hr; cases hr), replicated := nofun,
             follow := fun hr => (by rw [e4] at hr; cases hr) }
  · intro i
    refine ⟨fun hr => (by rw [e1] at hr; cases hr), fun hr => (by rw [e1] at hr; cases hr), ?_, ?_, ?_⟩
    · rw [e3]; nofun
    · rw [e3]; exact Lin.nil _
    · rw [e3]; exact List.Pairwise.nil
  · refine { none := fun _ => rfl, elect := nofun, linL := fun _ => Lin.nil _, sortedL := fun _ => .nil,
             linC := fun _ _ => Lin.nil _, sortedC := fun _ _ => .nil, termsC := nofun, asks := nofun, slices := nofun }
  · rintro k t n (⟨r, hm, _⟩ | ⟨hm, _⟩) <;> cases hm

end Cs.Raft
