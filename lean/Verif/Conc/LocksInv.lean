import Verif.Conc.Locks

/-!
# Threads and mutexes: the order in which mutexes are taken

Every mutex that a thread takes is above the ones it has, in the order of `Kind.rank`, except for a recursive mutex that it already has
and for `peers_lock_`, which it may share again while it has `lock_`. `peers_lock_` is taken for itself only by a thread that has
`lock_`. This is checked on the programs, and kept by every step.
-/

namespace Cs.Locks

/-- The order of the mutexes. -/
def Kind.rank : Kind → Nat
  | .main => 0
  | .peers => 1
  | .peer => 2
  | .rpc => 3
  | .commit => 4
  | .stopping => 5
  | .store => 6
  | .cache => 7
  | .session => 8
  | .loggers => 9
  | .logger => 10

theorem Kind.rank_le (k : Kind) : k.rank ≤ 10 := by cases k <;> decide

/-- What a thread has, by kinds. -/
abbrev Ctx := List (Kind × Bool)

/-- A mutex of kind `k` may be taken for itself by a thread that has `H`. -/
def okEx (H : Ctx) (k : Kind) : Bool :=
  (k.recursive && H.contains (k, false)) ||
    (H.all (fun h => decide (h.1.rank < k.rank)) && (!(k == .peers) || H.contains (.main, false)))

/-- A mutex of kind `k` may be shared by a thread that has `H`. -/
def okSh (H : Ctx) (k : Kind) : Bool :=
  ((k == .peers) && H.contains (.peers, true) && H.contains (.main, false)) || H.all (fun h => decide (h.1.rank < k.rank))

/-- The mutex that protects a member, if there is one; `true` if readers may share it. -/
def Var.guard : Var → Option (Kind × Bool)
  | .members => some (.peers, true)
  | .joining | .votes | .prevote | .steps | .changing | .catching | .timer | .sync => some (.main, false)
  | .clients => some (.rpc, false)
  | .files => some (.store, false)
  | .cached => some (.cache, true)
  | .config | .lastSnp | .status | .commits | .lastResp | .pace => none

/-- A thread that has `H` may read the member. -/
def mayRead (H : Ctx) (v : Var) : Bool :=
  match v.guard with
  | none => true
  | some (k, s) => H.contains (k, false) || (s && H.contains (k, true))

/-- A thread that has `H` may write the member. -/
def mayWrite (H : Ctx) (v : Var) : Bool :=
  match v.guard with
  | none => true
  | some (k, _) => H.contains (k, false)

/-- The program, run by a thread that has `H`, takes mutexes in order and uses members with the mutex that protects them. -/
def check (H : Ctx) : Prog → Bool
  | .skip => true
  | .rd v => mayRead H v
  | .wr v => mayWrite H v
  | .seq p q => check H p && check H q
  | .alt p q => check H p && check H q
  | .star p => check H p
  | .guard k p => okEx H k && check ((k, false) :: H) p
  | .shared k p => okSh H k && check ((k, true) :: H) p
  | .call p => check H p

theorem entryPoints_check : entryPoints.all (check []) = true := by decide +kernel

/-- The kinds of what a thread has. -/
def ctx (H : List Hold) : Ctx := H.map fun h => (h.lk.kind, h.shared)

theorem ctx_cons (h : Hold) (H : List Hold) : ctx (h :: H) = (h.lk.kind, h.shared) :: ctx H := rfl

/-- The same for a sequence of actions of a thread that has `H`; at its end the thread has nothing. -/
def Good : List Hold → List Act → Prop
  | H, [] => H = []
  | H, .lock l :: t => okEx (ctx H) l.kind = true ∧ l.Is l.kind ∧ Good (⟨l, false⟩ :: H) t
  | H, .rlock l :: t => okSh (ctx H) l.kind = true ∧ l.Is l.kind ∧ Good (⟨l, true⟩ :: H) t
  | H, .unlock :: t => ∃ h H', H = h :: H' ∧ Good H' t
  | H, .rd v :: t => mayRead (ctx H) v = true ∧ Good H t
  | H, .wr v :: t => mayWrite (ctx H) v = true ∧ Good H t

/-- What a checked program does is in order. -/
theorem trace_good {p : Prog} {b : Bool} {t : List Act} (ht : Trace p b t) :
    ∀ H, check (ctx H) p = true → ∀ r, Good H r → Good H (t ++ r) := by
  induction ht with
  | skip => intro H _ r hr; exact hr
  | rd v => intro H hc r hr; exact ⟨hc, hr⟩
  | wr v => intro H hc r hr; exact ⟨hc, hr⟩
  | leave p => intro H _ r hr; exact hr
  | seq _ _ ih1 ih2 =>
    intro H hc r hr
    have hc := Bool.and_eq_true_iff.mp hc
    rw [List.append_assoc]
    exact ih1 H hc.1 _ (ih2 H hc.2 r hr)
  | seqLeft _ ih => intro H hc r hr; exact ih H (Bool.and_eq_true_iff.mp hc).1 r hr
  | altL _ ih => intro H hc r hr; exact ih H (Bool.and_eq_true_iff.mp hc).1 r hr
  | altR _ ih => intro H hc r hr; exact ih H (Bool.and_eq_true_iff.mp hc).2 r hr
  | starEnd => intro H _ r hr; exact hr
  | starStep _ _ ih1 ih2 =>
    intro H hc r hr
    rw [List.append_assoc]
    exact ih1 H hc _ (ih2 H hc r hr)
  | starLeft _ ih => intro H hc r hr; exact ih H hc r hr
  | @guard k p b t l hl _ ih =>
    intro H hc r hr
    have hc := Bool.and_eq_true_iff.mp hc
    have hk : l.kind = k := hl.1
    subst hk
    rw [List.cons_append, List.cons_append, List.append_assoc]
    exact ⟨hc.1, hl, ih (⟨l, false⟩ :: H) hc.2 _ ⟨_, _, rfl, hr⟩⟩
  | @shared k p b t l hl _ ih =>
    intro H hc r hr
    have hc := Bool.and_eq_true_iff.mp hc
    have hk : l.kind = k := hl.1
    subst hk
    rw [List.cons_append, List.cons_append, List.append_assoc]
    exact ⟨hc.1, hl, ih (⟨l, true⟩ :: H) hc.2 _ ⟨_, _, rfl, hr⟩⟩
  | callEnd _ ih => intro H hc r hr; exact ih H hc r hr
  | callLeft _ ih => intro H hc r hr; exact ih H hc r hr

/-- What a thread has was taken in order. -/
def Taken : List Hold → Prop
  | [] => True
  | h :: H => (if h.shared then okSh (ctx H) h.lk.kind else okEx (ctx H) h.lk.kind) = true ∧ h.lk.Is h.lk.kind ∧ Taken H

/-- The state of a thread is in order. -/
def Thread.Ok (t : Thread) : Prop := Taken t.held ∧ Good t.held t.rest

/-- No two threads have the same mutex, unless both share it. -/
def Excl (ts : List Thread) : Prop :=
  ∀ (i j : Nat) (t u : Thread) (h g : Hold), ts[i]? = some t → ts[j]? = some u → i ≠ j → h ∈ t.held → g ∈ u.held → h.lk = g.lk →
    h.shared = true ∧ g.shared = true

/-- The invariant. -/
structure Inv (ts : List Thread) : Prop where
  ok : ∀ (i : Nat) (t : Thread), ts[i]? = some t → t.Ok
  excl : Excl ts

theorem get_set {ts : List Thread} {i j : Nat} {t u : Thread} (h : (ts.set i t)[j]? = some u) :
    (j = i ∧ u = t) ∨ (j ≠ i ∧ ts[j]? = some u) := by
  by_cases hj : j = i
  · subst hj
    rw [List.getElem?_set_self'] at h
    cases hx : ts[j]? with
    | none => rw [hx] at h; cases h
    | some x => rw [hx] at h; cases h; exact .inl ⟨rfl, rfl⟩
  · rw [List.getElem?_set_ne (Ne.symm hj)] at h
    exact .inr ⟨hj, h⟩

theorem excl_set {ts : List Thread} {i : Nat} {t : Thread} (he : Excl ts)
    (ht : ∀ (j : Nat) (u : Thread) (h g : Hold), ts[j]? = some u → j ≠ i → h ∈ t.held → g ∈ u.held → h.lk = g.lk →
      h.shared = true ∧ g.shared = true) : Excl (ts.set i t) := by
  intro a b x y h g ha hb hab hh hg hl
  rcases get_set ha with ⟨ha1, ha2⟩ | ⟨ha1, ha2⟩
  · subst ha2
    rcases get_set hb with ⟨hb1, hb2⟩ | ⟨hb1, hb2⟩
    · exact absurd (ha1.trans hb1.symm) hab
    · exact ht b y h g hb2 hb1 hh hg hl
  · rcases get_set hb with ⟨hb1, hb2⟩ | ⟨hb1, hb2⟩
    · subst hb2
      have := ht a x g h ha2 ha1 hg hh hl.symm
      exact ⟨this.2, this.1⟩
    · exact he a b x y h g ha2 hb2 hab hh hg hl

theorem Inv.set {ts : List Thread} {i : Nat} {t : Thread} (hi : Inv ts) (hok : t.Ok)
    (ht : ∀ (j : Nat) (u : Thread) (h g : Hold), ts[j]? = some u → j ≠ i → h ∈ t.held → g ∈ u.held → h.lk = g.lk →
      h.shared = true ∧ g.shared = true) : Inv (ts.set i t) where
  ok := by
    intro j u hu
    rcases get_set hu with ⟨_, hu⟩ | ⟨_, hu⟩
    · subst hu; exact hok
    · exact hi.ok j u hu
  excl := excl_set hi.excl ht

/-- A thread that has no more than before. -/
theorem Inv.less {ts : List Thread} {i : Nat} {t u : Thread} (hi : Inv ts) (hu : ts[i]? = some u) (hok : t.Ok)
    (hs : ∀ h ∈ t.held, h ∈ u.held) : Inv (ts.set i t) :=
  hi.set hok fun j x h g hx hj hh hg hl => hi.excl i j u x h g hu hx (Ne.symm hj) (hs h hh) hg hl

theorem Inv.move {b : Bool} {ts us : List Thread} {i : Nat} (hi : Inv ts) (hm : Move b ts i us) : Inv us := by
  cases hm with
  | @lock h l r ht hc =>
    obtain ⟨hk, hg1, hg2, hg3⟩ := hi.ok i _ ht
    refine hi.set ⟨⟨by simpa using hg1, hg2, hk⟩, hg3⟩ ?_
    intro j u a g hu hj ha hg hl
    rcases List.mem_cons.mp ha with ha | ha
    · subst ha
      exact absurd (hc j u g hu hg hl.symm).1 hj
    · exact hi.excl i j _ u a g ht hu (Ne.symm hj) ha hg hl
  | @rlock h l r ht hc _ =>
    obtain ⟨hk, hg1, hg2, hg3⟩ := hi.ok i _ ht
    refine hi.set ⟨⟨by simpa using hg1, hg2, hk⟩, hg3⟩ ?_
    intro j u a g hu hj ha hg hl
    rcases List.mem_cons.mp ha with ha | ha
    · subst ha
      exact ⟨rfl, hc j u g hu hg hl.symm⟩
    · exact hi.excl i j _ u a g ht hu (Ne.symm hj) ha hg hl
  | @unlock g h r ht =>
    obtain ⟨hk, h1, h2, he, hg⟩ := hi.ok i _ ht
    cases he
    exact hi.less ht ⟨hk.2.2, hg⟩ fun x hx => List.mem_cons_of_mem _ hx
  | @rd h v r ht =>
    obtain ⟨hk, _, hg⟩ := hi.ok i _ ht
    exact hi.less ht ⟨hk, hg⟩ fun x hx => hx
  | @wr h v r ht =>
    obtain ⟨hk, _, hg⟩ := hi.ok i _ ht
    exact hi.less ht ⟨hk, hg⟩ fun x hx => hx

theorem Inv.begin {ps : List Prog} {ts us : List Thread} (hp : ps.all (check []) = true) (hi : Inv ts) (hb : Begin ps ts us) :
    Inv us := by
  cases hb with
  | @mk i p b t ht hm htr =>
    have hg := trace_good htr [] (List.all_eq_true.mp hp p hm) [] rfl
    rw [List.append_nil] at hg
    exact hi.less ht ⟨trivial, hg⟩ fun h hh => by cases hh

theorem Reach.inv {ps : List Prog} (hp : ps.all (check []) = true) {ts : List Thread} (h : Reach ps ts) : Inv ts := by
  induction h with
  | init n =>
    have hidle : ∀ (i : Nat) (t : Thread), (List.replicate n Thread.idle)[i]? = some t → t = .idle := by
      intro i t ht
      rw [List.getElem?_replicate] at ht
      split at ht
      · cases ht; rfl
      · cases ht
    constructor
    · intro i t ht
      rw [hidle i t ht]
      exact ⟨trivial, rfl⟩
    · intro i j t u h g ht _ _ hh
      rw [hidle i t ht] at hh
      cases hh
  | begin _ hb ih => exact ih.begin hp hb
  | move _ hm ih => exact ih.move hm

/-! ## Someone can go on -/

theorem mem_ctx {H : List Hold} {h : Hold} (hm : h ∈ H) : (h.lk.kind, h.shared) ∈ ctx H := List.mem_map_of_mem hm

theorem of_mem_ctx {H : List Hold} {k : Kind} {s : Bool} (hm : (k, s) ∈ ctx H) : ∃ h ∈ H, h.lk.kind = k ∧ h.shared = s := by
  obtain ⟨h, hh, he⟩ := List.mem_map.mp hm
  cases he
  exact ⟨h, hh, rfl, rfl⟩

theorem of_contains {H : List Hold} {k : Kind} {s : Bool} (hm : (ctx H).contains (k, s) = true) :
    ∃ h ∈ H, h.lk.kind = k ∧ h.shared = s := of_mem_ctx (by simpa using hm)

theorem all_rank {H : List Hold} {n : Nat} (hm : (ctx H).all (fun h => decide (h.1.rank < n)) = true) :
    ∀ h ∈ H, h.lk.kind.rank < n := by
  intro h hh
  have := List.all_eq_true.mp hm _ (mem_ctx hh)
  simpa using this

theorem okEx_cases {H : List Hold} {k : Kind} (h : okEx (ctx H) k = true) :
    (k.recursive = true ∧ ∃ g ∈ H, g.lk.kind = k ∧ g.shared = false) ∨
      ((∀ g ∈ H, g.lk.kind.rank < k.rank) ∧ (k = .peers → ∃ g ∈ H, g.lk.kind = .main ∧ g.shared = false)) := by
  unfold okEx at h
  rcases Bool.or_eq_true_iff.mp h with h | h
  · have h := Bool.and_eq_true_iff.mp h
    exact .inl ⟨h.1, of_contains h.2⟩
  · have h := Bool.and_eq_true_iff.mp h
    refine .inr ⟨all_rank h.1, ?_⟩
    intro hk
    subst hk
    exact of_contains (by simpa using h.2)

theorem okSh_cases {H : List Hold} {k : Kind} (h : okSh (ctx H) k = true) :
    (k = .peers ∧ (∃ g ∈ H, g.lk.kind = .peers ∧ g.shared = true) ∧ ∃ g ∈ H, g.lk.kind = .main ∧ g.shared = false) ∨
      ∀ g ∈ H, g.lk.kind.rank < k.rank := by
  unfold okSh at h
  rcases Bool.or_eq_true_iff.mp h with h | h
  · have h := Bool.and_eq_true_iff.mp h
    have h1 := Bool.and_eq_true_iff.mp h.1
    exact .inl ⟨by simpa using h1.1, of_contains h1.2, of_contains h.2⟩
  · exact .inr (all_rank h)

theorem Taken.is {H : List Hold} (ht : Taken H) : ∀ h ∈ H, h.lk.Is h.lk.kind := by
  induction H with
  | nil => intro h hh; cases hh
  | cons g H ih =>
    intro h hh
    rcases List.mem_cons.mp hh with hh | hh
    · subst hh; exact ht.2.1
    · exact ih ht.2.2 h hh

/-- There is one mutex of a kind of which there are not several. -/
theorem one_of {l m : Lk} (hl : l.Is l.kind) (hm : m.Is m.kind) (he : l.kind = m.kind) (hk : l.kind.many = false) : l = m := by
  obtain ⟨k, n⟩ := l
  obtain ⟨k', n'⟩ := m
  cases he
  have h1 : n = 0 := hl.2 hk
  have h2 : n' = 0 := hm.2 hk
  rw [h1, h2]

/-- A thread that shares `peers_lock_` does not have it for itself. -/
theorem Taken.both {H : List Hold} (ht : Taken H) {g h : Hold} (hg : g ∈ H) (hh : h ∈ H) (hgk : g.lk.kind = .peers)
    (hhk : h.lk.kind = .peers) : g.shared = h.shared := by
  induction H generalizing g h with
  | nil => cases hg
  | cons a H ih =>
    have key : ∀ b ∈ H, a.lk.kind = .peers → b.lk.kind = .peers → a.shared = b.shared := by
      intro b hb hak hbk
      have h1 := ht.1
      cases ha : a.shared with
      | false =>
        rw [ha, hak] at h1
        rcases okEx_cases (show okEx (ctx H) .peers = true from h1) with h | h
        · exact absurd h.1 (by decide)
        · have := h.1 b hb
          rw [hbk] at this
          exact absurd this (Nat.lt_irrefl _)
      | true =>
        rw [ha, hak] at h1
        rcases okSh_cases (show okSh (ctx H) .peers = true from h1) with ⟨_, ⟨c, hc, hck, hcs⟩, _⟩ | h
        · rw [← hcs]; exact ih ht.2.2 hc hb hck hbk
        · have := h b hb
          rw [hbk] at this
          exact absurd this (Nat.lt_irrefl _)
    rcases List.mem_cons.mp hg with hg1 | hg1
    · rcases List.mem_cons.mp hh with hh1 | hh1
      · rw [hg1, hh1]
      · rw [hg1]; exact key h hh1 (hg1 ▸ hgk) hhk
    · rcases List.mem_cons.mp hh with hh1 | hh1
      · rw [hh1]; exact (key g hg1 (hh1 ▸ hhk) hgk).symm
      · exact ih ht.2.2 hg1 hh1 hgk hhk

/-- Someone can go on, also if readers never overtake writers. -/
def Alive (ts : List Thread) : Prop := ∃ i us, Move true ts i us

/-- A recursive mutex that the thread already has is free for it. -/
theorem again_free {ts : List Thread} (hi : Inv ts) {i : Nat} {t : Thread} (ht : ts[i]? = some t) {l : Lk} (hl : l.Is l.kind)
    (hr : l.kind.recursive = true) (hg : ∃ g ∈ t.held, g.lk.kind = l.kind ∧ g.shared = false) : CanLock ts i l := by
  intro j u h hu hh he
  by_cases hj : j = i
  · exact ⟨hj, hr⟩
  · exfalso
    obtain ⟨g, hg1, hg2, hg3⟩ := hg
    have hm : l.kind.many = false := by revert hr; cases l.kind <;> decide
    have : g.lk = l := (one_of hl ((hi.ok i t ht).1.is g hg1) hg2.symm hm).symm
    have := hi.excl i j t u g h ht hu (Ne.symm hj) hg1 hh (this.trans he.symm)
    rw [hg3] at this
    exact absurd this.1 (by decide)

/-- Why a thread that wants a mutex for itself does not get it. -/
theorem lock_blocked {ts : List Thread} (hi : Inv ts) {i : Nat} {H : List Hold} {l : Lk} {r : List Act}
    (ht : ts[i]? = some ⟨H, .lock l :: r⟩) :
    Alive ts ∨ ((∀ g ∈ H, g.lk.kind.rank < l.kind.rank) ∧ ∃ (j : Nat) (u : Thread) (h : Hold), ts[j]? = some u ∧ h ∈ u.held ∧ h.lk = l) := by
  obtain ⟨hk, hg1, hg2, _⟩ := hi.ok i _ ht
  rcases okEx_cases hg1 with ⟨hr, hg⟩ | ⟨hr, _⟩
  · exact .inl ⟨i, _, .lock ht (again_free hi ht hg2 hr hg)⟩
  · by_cases hc : CanLock ts i l
    · exact .inl ⟨i, _, .lock ht hc⟩
    · refine .inr ⟨hr, ?_⟩
      unfold CanLock at hc
      simp only [Classical.not_forall] at hc
      obtain ⟨j, u, h, h1, h2, h3, _⟩ := hc
      exact ⟨j, u, h, h1, h2, h3⟩

/-- A thread that shares `peers_lock_` gets it again. -/
theorem share_again {ts : List Thread} (hi : Inv ts) {i : Nat} {t : Thread} (ht : ts[i]? = some t) {l : Lk} (hl : l.Is l.kind)
    (hk : l.kind = .peers) (hp : ∃ g ∈ t.held, g.lk.kind = .peers ∧ g.shared = true)
    (hm : ∃ g ∈ t.held, g.lk.kind = .main ∧ g.shared = false) : CanShare ts l ∧ NoneWaits ts i l := by
  have htk := (hi.ok i t ht).1
  constructor
  · intro j u h hu hh he
    obtain ⟨g, hg1, hg2, hg3⟩ := hp
    by_cases hj : j = i
    · subst hj
      rw [ht] at hu
      cases hu
      rw [← hg3]
      exact htk.both hh hg1 (by rw [he]; exact hk) hg2
    · have : g.lk = l := one_of (htk.is g hg1) hl (hg2.trans hk.symm) (by rw [hg2]; rfl)
      exact (hi.excl i j t u g h ht hu (Ne.symm hj) hg1 hh (this.trans he.symm)).2
  · intro j u r hu hr
    by_cases hj : j = i
    · exact hj
    · exfalso
      obtain ⟨g, hg1, hg2, hg3⟩ := hm
      have huok := hi.ok j u hu
      have hgood := huok.2
      rw [hr] at hgood
      have hm2 : ∃ a ∈ u.held, a.lk.kind = .main ∧ a.shared = false := by
        rcases okEx_cases hgood.1 with ⟨h, _⟩ | ⟨_, h⟩
        · rw [hk] at h; exact absurd h (by decide)
        · exact h hk
      obtain ⟨a, ha1, ha2, ha3⟩ := hm2
      have : g.lk = a.lk := one_of (htk.is g hg1) (huok.1.is a ha1) (hg2.trans ha2.symm) (by rw [hg2]; rfl)
      have := hi.excl i j t u g a ht hu (Ne.symm hj) hg1 ha1 this
      rw [hg3] at this
      exact absurd this.1 (by decide)

/-- Either someone can go on, or the thread waits for another one that has a mutex above all that it has itself. -/
theorem go_or_wait {ts : List Thread} (hi : Inv ts) {i : Nat} {t : Thread} (ht : ts[i]? = some t) (hb : t.rest ≠ []) :
    Alive ts ∨ ∃ (j : Nat) (u : Thread) (h : Hold), ts[j]? = some u ∧ h ∈ u.held ∧ ∀ g ∈ t.held, g.lk.kind.rank < h.lk.kind.rank := by
  obtain ⟨H, r⟩ := t
  cases r with
  | nil => exact absurd rfl hb
  | cons a r =>
    have hok := hi.ok i _ ht
    cases a with
    | rd v => exact .inl ⟨i, _, .rd ht⟩
    | wr v => exact .inl ⟨i, _, .wr ht⟩
    | unlock =>
      obtain ⟨_, g, H', he, _⟩ := hok
      have he : H = g :: H' := he
      subst he
      exact .inl ⟨i, _, .unlock ht⟩
    | lock l =>
      rcases lock_blocked hi ht with h | ⟨hr, j, u, h, h1, h2, h3⟩
      · exact .inl h
      · refine .inr ⟨j, u, h, h1, h2, ?_⟩
        rw [h3]; exact hr
    | rlock l =>
      obtain ⟨hk, hg1, hg2, _⟩ := hok
      rcases okSh_cases hg1 with ⟨h1, h2, h3⟩ | hr
      · obtain ⟨hc, hn⟩ := share_again hi ht hg2 h1 h2 h3
        exact .inl ⟨i, _, .rlock ht hc fun _ => hn⟩
      · by_cases hc : CanShare ts l
        · by_cases hn : NoneWaits ts i l
          · exact .inl ⟨i, _, .rlock ht hc fun _ => hn⟩
          · unfold NoneWaits at hn
            simp only [Classical.not_forall] at hn
            obtain ⟨j, ⟨H', r'⟩, r2, h1, h2, _⟩ := hn
            have h2 : r' = .lock l :: r2 := h2
            subst h2
            rcases lock_blocked hi h1 with h | ⟨_, m, u, h, h3, h4, h5⟩
            · exact .inl h
            · refine .inr ⟨m, u, h, h3, h4, ?_⟩
              rw [h5]; exact hr
        · unfold CanShare at hc
          simp only [Classical.not_forall] at hc
          obtain ⟨j, u, h, h1, h2, h3, _⟩ := hc
          refine .inr ⟨j, u, h, h1, h2, ?_⟩
          rw [h3]; exact hr

theorem busy_of_held {t : Thread} (hok : t.Ok) {h : Hold} (hh : h ∈ t.held) : t.rest ≠ [] := by
  intro he
  have hg := hok.2
  rw [he] at hg
  rw [show t.held = [] from hg] at hh
  cases hh

theorem alive_of_held {ts : List Thread} (hi : Inv ts) (n : Nat) : ∀ (j : Nat) (u : Thread) (h : Hold), ts[j]? = some u → h ∈ u.held →
    11 ≤ n + h.lk.kind.rank → Alive ts := by
  induction n with
  | zero =>
    intro j u h _ _ hn
    have := h.lk.kind.rank_le
    omega
  | succ n ih =>
    intro j u h hu hh hn
    rcases go_or_wait hi hu (busy_of_held (hi.ok j u hu) hh) with ha | ⟨m, v, g, h1, h2, h3⟩
    · exact ha
    · have := h3 h hh
      exact ih m v g h1 h2 (by omega)

theorem alive_of_busy {ts : List Thread} (hi : Inv ts) {i : Nat} {t : Thread} (ht : ts[i]? = some t) (hb : t.rest ≠ []) : Alive ts := by
  rcases go_or_wait hi ht hb with ha | ⟨m, v, g, h1, h2, _⟩
  · exact ha
  · exact alive_of_held hi 11 m v g h1 h2 (by omega)

/-! ## The work that is left -/

/-- The number of actions that are left to the threads. -/
def left (ts : List Thread) : Nat := (ts.map fun t => t.rest.length).sum

theorem left_set {ts : List Thread} {i : Nat} {t u : Thread} (hi : ts[i]? = some t) (hu : u.rest.length + 1 = t.rest.length) :
    left (ts.set i u) + 1 = left ts := by
  induction ts generalizing i with
  | nil => cases hi
  | cons x ts ih =>
    cases i with
    | zero =>
      cases hi
      simp only [left, List.set_cons_zero, List.map_cons, List.sum_cons]
      omega
    | succ i =>
      have := ih hi
      simp only [left, List.set_cons_succ, List.map_cons, List.sum_cons] at this ⊢
      omega

theorem Move.left {b : Bool} {ts us : List Thread} {i : Nat} (hm : Move b ts i us) : left us + 1 = left ts := by
  cases hm with
  | lock ht => exact left_set ht rfl
  | rlock ht => exact left_set ht rfl
  | unlock ht => exact left_set ht rfl
  | rd ht => exact left_set ht rfl
  | wr ht => exact left_set ht rfl

theorem Move.lax {b : Bool} {ts us : List Thread} {i : Nat} (hm : Move b ts i us) : Move false ts i us := by
  cases hm with
  | lock ht hc => exact .lock ht hc
  | rlock ht hc _ => exact .rlock ht hc fun h => by cases h
  | unlock ht => exact .unlock ht
  | rd ht => exact .rd ht
  | wr ht => exact .wr ht

end Cs.Locks
