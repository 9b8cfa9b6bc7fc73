import Verif.Raft.Tell
import Verif.Raft.PropsCommit

/-!
# Calls of the state machine come in pairs (C80, C81)
-/

namespace Cs.Raft
open Cs

/-! ## Specification -/

/-- What a call of the state machine says about index `k`: `pre_commit` announces a command, `rollback` takes it back. -/
def sayTo (k : Nat) (a : Option Entry) : Eff → Option Entry
  | .preCommit i e => if i = k then some e else a
  | .rollback i _ => if i = k then none else a
  | _ => a

/-- The command the state machine has been told of for index `k`, if the last such call was not `rollback`. -/
def announced (k : Nat) (fx : List Eff) : Option Entry := fx.foldl (sayTo k) none

/-- The same, where `commit` settles the matter too. -/
def leftAt (k : Nat) (a : Option Entry) : Eff → Option Entry
  | .preCommit i e => if i = k then some e else a
  | .rollback i _ => if i = k then none else a
  | .commit i _ => if i = k then none else a
  | _ => a

/-- The command announced for index `k` that is neither committed nor rolled back. -/
def unsettled (k : Nat) (fx : List Eff) : Option Entry := fx.foldl (leftAt k) none

/-- Packs of the log, as a server that joins gets them. -/
def Input.isPack : Input → Bool
  | .req r => r.type == .syncReq
  | _ => false

/-- Commands of the application of the leader itself, `replicate_log`. -/
def Input.isOwn : Input → Bool
  | .replicate _ => true
  | _ => false

/-- Clients send commands only. -/
def Input.plain : Input → Prop
  | .req r => r.type = .clientReq → ∀ e ∈ r.entries, e.isApp = true
  | _ => True

/-! ## Logs -/

theorem Log.get?_append {l : Log} {e x : Entry} {k : Nat} (h : (l.append e).get? k = some x) :
    (k < l.next ∧ l.get? k = some x) ∨ (k = l.next ∧ x = e) := by
  have hl := Log.get?_lt h
  rw [Log.next_append] at hl
  have hs : l.start ≤ k := hl.1
  unfold Log.get? Log.append at h
  unfold Log.get?
  simp only [] at h
  rw [if_neg (by omega)] at h
  rw [if_neg (by omega)]
  by_cases hk : k < l.next
  · left
    rw [List.getElem?_append_left (by unfold Log.next at hk; omega)] at h
    exact ⟨hk, h⟩
  · right
    have : k = l.next := by omega
    subst this
    unfold Log.next at h
    rw [List.getElem?_append_right (by omega)] at h
    have h0 : l.start + l.ents.length - l.start - l.ents.length = 0 := by omega
    rw [h0] at h
    cases h
    exact ⟨rfl, rfl⟩

theorem Log.get?_over {l : Log} {e x : Entry} {i k : Nat} (hi : l.start ≤ i ∧ i < l.next)
    (h : (l.replaceFrom i [e]).get? k = some x) : (k < i ∧ l.get? k = some x) ∨ (k = i ∧ x = e) := by
  unfold Log.get? Log.replaceFrom at h
  unfold Log.get?
  simp only [] at h
  unfold Log.next at hi
  split at h
  · cases h
  · rename_i hk
    rw [if_neg hk]
    by_cases hlt : k < i
    · left
      rw [List.getElem?_append_left (by rw [List.length_take]; omega), List.getElem?_take_of_lt (by omega)] at h
      exact ⟨hlt, h⟩
    · right
      rw [List.getElem?_append_right (by rw [List.length_take]; omega), List.length_take] at h
      obtain ⟨h1, h2⟩ := List.getElem?_eq_some_iff.1 h
      rw [List.length_singleton] at h1
      have hk : k = i := by omega
      subst hk
      simp only [List.getElem_singleton] at h2
      exact ⟨rfl, h2.symm⟩

theorem Log.get?_compact {l : Log} {i k : Nat} (hi : l.start ≤ i) (hk : i < k) : (l.compact i).get? k = l.get? k := by
  unfold Log.get? Log.compact
  simp only []
  rw [if_neg (by omega), if_neg (by omega), List.getElem?_drop]
  congr 1
  omega

theorem Log.get?_compact_some {l : Log} {i k : Nat} {x : Entry} (hi : l.start ≤ i) (h : (l.compact i).get? k = some x) :
    l.get? k = some x := by
  have := (Log.get?_lt h).1
  rw [← Log.get?_compact hi (by unfold Log.compact at this; simp only [] at this; omega)]
  exact h

/-! ## C80 -/

theorem announced_snoc (k : Nat) (f : List Eff) (e : Eff) : announced k (f ++ [e]) = sayTo k (announced k f) e := by
  unfold announced; rw [List.foldl_append]; rfl

theorem announced_append (k : Nat) (f g : List Eff) : announced k (f ++ g) = g.foldl (sayTo k) (announced k f) := by
  unfold announced; rw [List.foldl_append]

/-- `commit` and `rollback` from index `n` on are about what is announced. -/
def SaidFirst (n : Nat) (f : List Eff) : Eff → Prop
  | .commit k e => n ≤ k → announced k f = some e
  | .rollback k e => n ≤ k → announced k f = some e
  | _ => True

/-- The commands of the log from index `n` on are announced. -/
def LogSaid (n : Nat) (f : List Eff) (l : Log) : Prop :=
  ∀ k e, n ≤ k → l.get? k = some e → e.isApp = true → announced k f = some e

theorem said_roll (k i : Nat) (x : Entry) (a : Option Entry) (h : k ≠ i) : (rollFx i x).foldl (sayTo k) a = a := by
  unfold rollFx
  split
  · show (if i = k then none else a) = a; rw [if_neg (by omega)]
  · rfl
theorem said_note (k i : Nat) (x : Entry) (a : Option Entry) (h : k ≠ i) : (noteFx i x).foldl (sayTo k) a = a := by
  unfold noteFx
  split
  · show (if i = k then some x else a) = a; rw [if_neg (by omega)]
  · rfl
theorem said_note_self (i : Nat) (x : Entry) (a : Option Entry) (h : x.isApp = true) :
    (noteFx i x).foldl (sayTo i) a = some x := by
  unfold noteFx
  rw [if_pos h]
  show (if i = i then some x else a) = some x
  rw [if_pos rfl]

theorem saidRules (n : Nat) : Rules (fun _ _ => True) (SaidFirst n) (LogSaid n) (fun _ => True) where
  quiet := by
    intro f l e h hi
    have h1 : ∀ k a, sayTo k a e = a := by intro k a; cases e <;> first | rfl | cases h
    refine ⟨(by cases e <;> first | trivial | cases h), fun k x hn hk ha => ?_⟩
    rw [announced_snoc, h1]
    exact hi k x hn hk ha
  compact := fun hl hi k x hn hk ha => hi k x hn (Log.get?_compact_some hl hk) ha
  new := by
    intro f l e hi
    refine ⟨fun k x hn hk ha => ?_, ?_⟩
    · rw [announced_append]
      show (noteFx l.next e).foldl (sayTo k) (announced k f) = some x
      rcases Log.get?_append hk with ⟨h1, h2⟩ | ⟨h1, h2⟩
      · rw [said_note _ _ _ _ (by omega)]; exact hi k x hn h2 ha
      · subst h1; subst h2; exact said_note_self _ _ _ ha
    · refine each_cons.2 ⟨trivial, ?_⟩
      unfold noteFx
      split
      · exact each_cons.2 ⟨trivial, each_nil⟩
      · exact each_nil
  client := by
    intro f l e _ hi
    refine ⟨fun k x hn hk ha => ?_, each_cons.2 ⟨trivial, each_cons.2 ⟨trivial, each_nil⟩⟩⟩
    rw [announced_append]
    show (if l.next = k then some e else announced k f) = some x
    rcases Log.get?_append hk with ⟨h1, h2⟩ | ⟨h1, h2⟩
    · rw [if_neg (by omega)]; exact hi k x hn h2 ha
    · subst h1; subst h2; rw [if_pos rfl]
  over := by
    intro f l i x e hg _ hi
    have hl := Log.get?_lt hg
    refine ⟨fun k y hn hk ha => ?_, ?_⟩
    · rw [announced_append, List.foldl_append]
      show (noteFx i e).foldl (sayTo k) ((rollFx i x).foldl (sayTo k) (announced k f)) = some y
      rcases Log.get?_over hl hk with ⟨h1, h2⟩ | ⟨h1, h2⟩
      · rw [said_note _ _ _ _ (by omega), said_roll _ _ _ _ (by omega)]; exact hi k y hn h2 ha
      · subst h1; subst h2; exact said_note_self _ _ _ ha
    · refine each_append.2 ⟨?_, each_cons.2 ⟨trivial, ?_⟩⟩
      · unfold rollFx
        split
        · exact each_cons.2 ⟨fun hn => hi i x hn hg ‹_›, each_nil⟩
        · exact each_nil
      · unfold noteFx
        split
        · exact each_cons.2 ⟨trivial, each_nil⟩
        · exact each_nil
  commit := by
    intro f l i t d hg hi
    exact ⟨fun hn => hi i _ hn hg rfl, fun k x hn hk ha => by rw [announced_snoc]; exact hi k x hn hk ha⟩

/-- The walk along a run of a server. -/
theorem runs_tell {Hyp Good : List Eff → Eff → Prop} {Inv : List Eff → Log → Prop} {s s' : Srv} {xs : List Input} {fx : List Eff}
    (h : Runs s xs fx s') (hx : ∀ x ∈ xs, Pres (Tell Hyp Good Inv) x.run) (hi : Inv [] s.log) (hh : Each Hyp [] fx) :
    Inv fx s'.log ∧ Each Good [] fx := by
  induction h with
  | nil => exact ⟨hi, each_nil⟩
  | @step s1 s2 xs fx x res hr1 hr _ ih =>
    obtain ⟨p1, p2⟩ := each_append.1 hh
    obtain ⟨i1, i2⟩ := ih (fun y hy => hx y (List.mem_append_left _ hy)) p1
    obtain ⟨es, ht, hp⟩ := hx x (by simp) { s1 with trace := [] }
    rw [hr] at ht hp
    rw [List.nil_append] at p2
    have ht' : s2.trace = es := by rw [ht]; rfl
    rw [ht'] at p2 ⊢
    obtain ⟨q1, q2⟩ := hp fx p2 i1
    exact ⟨q1, each_append.2 ⟨i2, by rw [List.nil_append]; exact q2⟩⟩

/-- C80, for a server that keeps running, gets no pack of the log and whose application does not call `replicate_log`: what is
committed or rolled back at an index behind the log of the beginning is what was announced last for this index. -/
theorem commit_is_announced_partial {s s' : Srv} {xs : List Input} {fx : List Eff} (h : Runs s xs fx s')
    (hx : ∀ x ∈ xs, x.isPack = false ∧ x.isOwn = false) {before after : List Eff} {k : Nat} {e : Entry}
    (hf : fx = before ++ .commit k e :: after ∨ fx = before ++ .rollback k e :: after) (hk : s.log.next ≤ k) :
    announced k before = some e := by
  have hw : ∀ x ∈ xs, Pres (Tell (fun _ _ => True) (SaidFirst s.log.next) (LogSaid s.log.next)) x.run := by
    intro x hm
    obtain ⟨h1, h2⟩ := hx x hm
    refine tl_run (saidRules _) ?_ ?_ (fun _ _ _ _ _ _ => trivial)
    · rintro r rfl ht
      have : (r.type == MsgType.syncReq) = false := h1
      rw [ht] at this
      cases this
    · rintro d rfl
      cases h2
  have hi : LogSaid s.log.next [] s.log := fun k x hn hg _ => by
    have := (Log.get?_lt hg).2
    omega
  obtain ⟨_, hg⟩ := runs_tell h hw hi (fun _ _ _ _ => trivial)
  rcases hf with hf | hf
  · have := hg _ _ _ hf hk
    simpa using this
  · have := hg _ _ _ hf hk
    simpa using this

/-! ## C81 -/

theorem unsettled_snoc (k : Nat) (f : List Eff) (e : Eff) : unsettled k (f ++ [e]) = leftAt k (unsettled k f) e := by
  unfold unsettled; rw [List.foldl_append]; rfl

theorem unsettled_append (k : Nat) (f g : List Eff) : unsettled k (f ++ g) = g.foldl (leftAt k) (unsettled k f) := by
  unfold unsettled; rw [List.foldl_append]

/-- What is unsettled is in the log, or was cut off its front. -/
def LeftIn (f : List Eff) (l : Log) : Prop :=
  ∀ k e, unsettled k f = some e → k < l.next ∧ (l.start ≤ k → l.get? k = some e ∧ e.isApp = true)

/-- Nothing is unsettled when a command is announced. -/
def Clean (f : List Eff) : Eff → Prop
  | .preCommit k _ => unsettled k f = none
  | _ => True

/-- Nothing behind an entry that is overwritten is unsettled. -/
def OverLast (f : List Eff) : Eff → Prop
  | .writeAt i _ => ∀ k, i < k → unsettled k f = none
  | _ => True

theorem left_roll (k i : Nat) (x : Entry) (a : Option Entry) (h : k ≠ i) : (rollFx i x).foldl (leftAt k) a = a := by
  unfold rollFx
  split
  · show (if i = k then none else a) = a; rw [if_neg (by omega)]
  · rfl
theorem left_note (k i : Nat) (x : Entry) (a : Option Entry) (h : k ≠ i) : (noteFx i x).foldl (leftAt k) a = a := by
  unfold noteFx
  split
  · show (if i = k then some x else a) = a; rw [if_neg (by omega)]
  · rfl

theorem Log.get?_append_self (l : Log) (e : Entry) : (l.append e).get? l.next = some e := by
  obtain ⟨x, hx⟩ := Log.get?_some (l := l.append e) (i := l.next) (by show l.start ≤ _; unfold Log.next; omega) (by rw [Log.next_append]; omega)
  rcases Log.get?_append hx with ⟨h, _⟩ | ⟨_, h⟩
  · omega
  · rw [hx, h]
theorem Log.get?_append_lt {l : Log} {e x : Entry} {k : Nat} (h : l.get? k = some x) : (l.append e).get? k = some x := by
  have hl := Log.get?_lt h
  obtain ⟨y, hy⟩ := Log.get?_some (l := l.append e) (i := k) hl.1 (by rw [Log.next_append]; omega)
  rcases Log.get?_append hy with ⟨_, h'⟩ | ⟨h', _⟩
  · rw [hy, ← h', h]
  · omega
theorem Log.next_over {l : Log} {e : Entry} {i : Nat} (hi : l.start ≤ i ∧ i < l.next) : (l.replaceFrom i [e]).next = i + 1 := by
  unfold Log.replaceFrom Log.next at *
  simp only [List.length_append, List.length_take, List.length_singleton]
  omega
theorem Log.get?_over_lt {l : Log} {e x : Entry} {i k : Nat} (hi : l.start ≤ i ∧ i < l.next) (hk : k < i) (h : l.get? k = some x) :
    (l.replaceFrom i [e]).get? k = some x := by
  have hl := Log.get?_lt h
  obtain ⟨y, hy⟩ := Log.get?_some (l := l.replaceFrom i [e]) (i := k) hl.1 (by rw [Log.next_over hi]; omega)
  rcases Log.get?_over hi hy with ⟨_, h'⟩ | ⟨h', _⟩
  · rw [hy, ← h', h]
  · omega
theorem Log.get?_over_self {l : Log} {e : Entry} {i : Nat} (hi : l.start ≤ i ∧ i < l.next) : (l.replaceFrom i [e]).get? i = some e := by
  obtain ⟨y, hy⟩ := Log.get?_some (l := l.replaceFrom i [e]) (i := i) hi.1 (by rw [Log.next_over hi]; omega)
  rcases Log.get?_over hi hy with ⟨h', _⟩ | ⟨_, h'⟩
  · omega
  · rw [hy, h']

/-- An entry is added, and announced if `fx` says so. -/
theorem left_add {f fx : List Eff} {l : Log} {e : Entry} (hi : LeftIn f l) (ha : fx = [] ∨ (e.isApp = true ∧ fx = [.preCommit l.next e])) :
    LeftIn (f ++ (.append e :: fx)) (l.append e) ∧ Each Clean f (.append e :: fx) := by
  have hnone : unsettled l.next f = none := by
    rcases hu : unsettled l.next f with _ | x
    · rfl
    · have := (hi _ _ hu).1; omega
  have old : ∀ k x, unsettled k f = some x → k < (l.append e).next ∧ ((l.append e).start ≤ k → (l.append e).get? k = some x ∧ x.isApp = true) := by
    intro k x hu
    obtain ⟨h1, h2⟩ := hi k x hu
    exact ⟨by rw [Log.next_append]; omega, fun hs => ⟨Log.get?_append_lt (h2 hs).1, (h2 hs).2⟩⟩
  rcases ha with rfl | ⟨ha, rfl⟩
  · refine ⟨fun k x hu => ?_, each_cons.2 ⟨trivial, each_nil⟩⟩
    rw [unsettled_snoc] at hu
    exact old k x hu
  · refine ⟨fun k x hu => ?_, each_cons.2 ⟨trivial, each_cons.2 ⟨?_, each_nil⟩⟩⟩
    · rw [unsettled_append] at hu
      have hu' : (if l.next = k then some e else unsettled k f) = some x := hu
      by_cases hk : l.next = k
      · rw [if_pos hk] at hu'
        cases hu'
        subst hk
        exact ⟨by rw [Log.next_append]; omega, fun _ => ⟨Log.get?_append_self l e, ha⟩⟩
      · rw [if_neg hk] at hu'
        exact old k x hu'
    · show unsettled l.next (f ++ [.append e]) = none
      rw [unsettled_snoc]
      exact hnone

theorem leftRules : Rules OverLast Clean LeftIn (fun e => e.isApp = true) where
  quiet := by
    intro f l e h hi
    have h1 : ∀ k a, leftAt k a e = a := by intro k a; cases e <;> first | rfl | cases h
    refine ⟨(by cases e <;> first | trivial | cases h), fun k x hu => ?_⟩
    rw [unsettled_snoc, h1] at hu
    exact hi k x hu
  compact := by
    intro f l i hl hi k x hu
    obtain ⟨h1, h2⟩ := hi k x hu
    refine ⟨?_, fun hs => ?_⟩
    · unfold Log.compact Log.next at *
      simp only [List.length_drop] at *
      omega
    · have hs' : i + 1 ≤ k := hs
      rw [Log.get?_compact hl (by omega)]
      exact h2 (by omega)
  new := by
    intro f l e hi
    refine left_add hi ?_
    unfold noteFx
    split
    · exact .inr ⟨‹_›, rfl⟩
    · exact .inl rfl
  client := fun hc hi => left_add hi (.inr ⟨hc, rfl⟩)
  over := by
    intro f l i x e hg hh hi
    have hl := Log.get?_lt hg
    have hlast : ∀ k, i < k → unsettled k f = none := by
      intro k hk
      have := (each_cons.1 (each_append.1 hh).2).1 k hk
      rw [unsettled_append, left_roll _ _ _ _ (by omega)] at this
      exact this
    have hself : unsettled i (f ++ rollFx i x) = none := by
      rw [unsettled_append]
      unfold rollFx
      split
      · show (if i = i then none else unsettled i f) = none; rw [if_pos rfl]
      · rename_i hx
        rcases hu : unsettled i f with _ | y
        · rfl
        · obtain ⟨h1, h2⟩ := (hi i y hu).2 hl.1
          rw [hg] at h1
          cases h1
          exact absurd h2 hx
    refine ⟨fun k y hu => ?_, ?_⟩
    · rw [unsettled_append, List.foldl_append] at hu
      have hu' : (noteFx i e).foldl (leftAt k) ((rollFx i x).foldl (leftAt k) (unsettled k f)) = some y := hu
      rw [Log.next_over hl]
      by_cases hk : k = i
      · subst hk
        rw [unsettled_append] at hself
        rw [hself] at hu'
        unfold noteFx at hu'
        split at hu'
        · have hu'' : (if k = k then some e else none) = some y := hu'
          rw [if_pos rfl] at hu''
          cases hu''
          exact ⟨by omega, fun _ => ⟨Log.get?_over_self hl, ‹_›⟩⟩
        · cases hu'
      · rw [left_note _ _ _ _ hk, left_roll _ _ _ _ hk] at hu'
        by_cases hki : i < k
        · rw [hlast k hki] at hu'; cases hu'
        · refine ⟨by omega, fun hs => ?_⟩
          obtain ⟨h1, h2⟩ := (hi k y hu').2 hs
          exact ⟨Log.get?_over_lt hl (by omega) h1, h2⟩
    · refine each_append.2 ⟨?_, each_cons.2 ⟨trivial, ?_⟩⟩
      · unfold rollFx
        split
        · exact each_cons.2 ⟨trivial, each_nil⟩
        · exact each_nil
      · unfold noteFx
        split
        · refine each_cons.2 ⟨?_, each_nil⟩
          show unsettled i (f ++ rollFx i x ++ [.writeAt i e]) = none
          rw [unsettled_snoc]
          exact hself
        · exact each_nil
  commit := by
    intro f l i t d hg hi
    refine ⟨trivial, fun k x hu => ?_⟩
    rw [unsettled_snoc] at hu
    have hu' : (if i = k then none else unsettled k f) = some x := hu
    split at hu'
    · cases hu'
    · exact hi k x hu'

theorem left_replicate (d : Nat) : Pres (Tell OverLast Clean LeftIn) (Input.replicate d).run := by
  refine pres_bind tellPo ?_ fun _ => pres_pure tellPo _
  unfold replicateLog
  refine pres_bind tellPo (tl_isLeader leftRules) fun b => pres_ite ?_ (pres_pure tellPo _)
  refine pres_bind tellPo (pres_get tellPo) fun s => pres_bind tellPo ?_ fun _ =>
    pres_bind tellPo (tl_requestAppendAll leftRules) fun _ => pres_pure tellPo _
  exact fun s1 => ⟨[.append _], rfl, fun f _ hi => left_add hi (.inl rfl)⟩

/-- C81, for a server that keeps running and gets no pack of the log, whose clients send commands only, and where an entry is
overwritten only if no command behind it is unsettled: when a command is announced for an index, the one announced before for this
index has been committed or rolled back. -/
theorem announced_is_settled_partial {s s' : Srv} {xs : List Input} {fx : List Eff} (h : Runs s xs fx s')
    (hx : ∀ x ∈ xs, x.isPack = false ∧ x.plain)
    (hw : ∀ before i e after, fx = before ++ .writeAt i e :: after → ∀ k, i < k → unsettled k before = none)
    {before after : List Eff} {k : Nat} {e : Entry} (hf : fx = before ++ .preCommit k e :: after) : unsettled k before = none := by
  have hr : ∀ x ∈ xs, Pres (Tell OverLast Clean LeftIn) x.run := by
    intro x hm
    obtain ⟨h1, h2⟩ := hx x hm
    by_cases ho : ∃ d, x = .replicate d
    · obtain ⟨d, rfl⟩ := ho
      exact left_replicate d
    · refine tl_run leftRules ?_ (fun d hd => ho ⟨d, hd⟩) ?_
      · rintro r rfl ht
        have : (r.type == MsgType.syncReq) = false := h1
        rw [ht] at this
        cases this
      · rintro r rfl ht e he t
        have := h2 ht e he
        exact this
  have hh : Each OverLast [] fx := by
    intro a x b hb
    cases x with
    | writeAt i e => rw [List.nil_append]; exact hw a i e b hb
    | _ => trivial
  obtain ⟨_, hg⟩ := runs_tell h hr (fun k e hu => (by cases hu)) hh
  have := hg _ _ _ hf
  rw [List.nil_append] at this
  exact this

/-! ## Cases -/

/-- Run a server and collect the effects. -/
def Srv.runAll (s : Srv) (fx : List Eff) : List Input → Option (Srv × List Eff)
  | [] => some (s, fx)
  | x :: xs => match x.run { s with trace := [] } with
    | (.ok _, s') => s'.runAll (fx ++ s'.trace) xs
    | (.error .thrown, s') => s'.runAll (fx ++ s'.trace) xs
    | _ => none

theorem Srv.runAll_runs {s0 s s' : Srv} {ys xs : List Input} {fx fx' : List Eff} (h : Runs s0 ys fx s)
    (hr : s.runAll fx xs = some (s', fx')) : Runs s0 (ys ++ xs) fx' s' := by
  induction xs generalizing s fx ys with
  | nil => cases hr; rw [List.append_nil]; exact h
  | cons x xs ih =>
    unfold Srv.runAll at hr
    rcases hx : x.run { s with trace := [] } with ⟨e | u, s1⟩
    · rw [hx] at hr
      cases e with
      | thrown =>
        have := ih (.step h hx (.inr rfl)) hr
        rw [List.append_assoc] at this
        exact this
      | _ => cases hr
    · rw [hx] at hr
      have := ih (.step h hx (.inl rfl)) hr
      rw [List.append_assoc] at this
      exact this

theorem Srv.runs_witness {s : Srv} (xs : List Input) (P : Srv → List Eff → Bool)
    (h : (match s.runAll [] xs with | some (s', fx) => P s' fx | none => false) = true) : ∃ s' fx, Runs s xs fx s' ∧ P s' fx = true := by
  rcases hr : s.runAll [] xs with _ | ⟨s', fx⟩
  · rw [hr] at h; cases h
  · rw [hr] at h
    exact ⟨s', fx, Srv.runAll_runs .nil hr, h⟩

/-- A server that starts, alone in its cluster. -/
def alone : Config := ⟨0, 0, [⟨1, 1⟩]⟩

/-- A client sends two commands. -/
def twoCommands : Req :=
  { type := .clientReq, term := 0, src := 0, dst := 1, lastTerm := 0, lastIdx := 0, commitIdx := 0, entries := [⟨0, .app 7⟩, ⟨0, .app 8⟩] }

/-- C80 fails for `replicate_log`: the command is appended and committed, and the state machine of the leader is never told of it
before. -/
theorem replicated_not_announced :
    ∃ n fx, Hist node1 (Node.fresh alone) [.electionTimeout, .replicate 7, .apply, .apply] fx n ∧
      Eff.commit 2 ⟨1, .app 7⟩ ∈ fx ∧ ∀ k e, Eff.preCommit k e ∉ fx := by
  obtain ⟨n, fx, h, hp⟩ := Node.witness (c := node1) (n := Node.fresh alone)
    [.start, .go .electionTimeout, .go (.replicate 7), .go .apply, .go .apply]
    (fun _ fx => decide (Eff.commit 2 ⟨1, .app 7⟩ ∈ fx) && fx.all fun | .preCommit _ _ => false | _ => true) (by decide +kernel)
  simp only [Bool.and_eq_true, decide_eq_true_eq, List.all_eq_true] at hp
  exact ⟨n, fx, h, hp.1, fun k e hm => by cases hp.2 _ hm⟩

/-- C80 fails after a crash: the server ends when it has appended a command and not yet announced it. When it runs again it commits
the command. -/
theorem restarted_not_announced :
    ∃ n fx, Hist node1 (Node.fresh alone) [.electionTimeout, .req twoCommands, .electionTimeout, .apply, .apply] fx n ∧
      Eff.commit 2 ⟨1, .app 7⟩ ∈ fx ∧ ∀ k e, Eff.preCommit k e ∉ fx := by
  obtain ⟨n, fx, h, hp⟩ := Node.witness (c := node1) (n := Node.fresh alone)
    [.start, .go .electionTimeout, .crash (.req twoCommands) 1, .start, .go .electionTimeout, .go .apply, .go .apply]
    (fun _ fx => decide (Eff.commit 2 ⟨1, .app 7⟩ ∈ fx) && fx.all fun | .preCommit _ _ => false | _ => true) (by decide +kernel)
  simp only [Bool.and_eq_true, decide_eq_true_eq, List.all_eq_true] at hp
  exact ⟨n, fx, h, hp.1, fun k e hm => by cases hp.2 _ hm⟩

/-- The first leader sends two commands. -/
def firstTwo : Input := .req (appendReqOf 2 5 0 0 [⟨5, .app 7⟩, ⟨5, .app 8⟩] 0)
/-- The next leader has neither of them. -/
def otherTwo : Input := .req (appendReqOf 3 6 0 0 [⟨6, .app 9⟩, ⟨6, .app 10⟩] 2)
/-- The next leader has the first one. -/
def otherOne : Input := .req (appendReqOf 3 6 5 1 [⟨6, .app 9⟩] 2)

/-- C81 fails when a new leader overwrites more than one command: only the first of them is rolled back. Another command is announced
and committed at the index of the second one, and nothing was ever said about the second one. -/
theorem overwritten_not_rolled_back :
    ∃ n before after, Hist node1 (Node.fresh conf3) [firstTwo, otherTwo, .apply, .apply]
        (before ++ .preCommit 2 ⟨6, .app 10⟩ :: after) n ∧
      unsettled 2 before = some ⟨5, .app 8⟩ ∧ Eff.commit 2 ⟨6, .app 10⟩ ∈ after ∧
      ∀ e, Eff.rollback 2 e ∉ before ++ .preCommit 2 ⟨6, .app 10⟩ :: after := by
  obtain ⟨n, fx, h, hp⟩ := Node.witness (c := node1) (n := Node.fresh conf3) [.start, .go firstTwo, .go otherTwo, .go .apply, .go .apply]
    (fun _ fx => decide (fx = fx.take 13 ++ .preCommit 2 ⟨6, .app 10⟩ :: fx.drop 14) &&
      decide (unsettled 2 (fx.take 13) = some ⟨5, .app 8⟩) && decide (Eff.commit 2 ⟨6, .app 10⟩ ∈ fx.drop 14) &&
      fx.all fun | .rollback 2 _ => false | _ => true) (by decide +kernel)
  simp only [Bool.and_eq_true, decide_eq_true_eq, List.all_eq_true] at hp
  obtain ⟨⟨⟨h1, h2⟩, h3⟩, h4⟩ := hp
  rw [h1] at h
  refine ⟨n, _, _, h, h2, h3, fun e hm => ?_⟩
  rw [← h1] at hm
  cases h4 _ hm

/-- A case of C80 and C81: two commands, the second one is overwritten, and both that remain are committed. -/
example : ∃ s' fx, Runs (boot 1 {} Env.plain { config := conf3 }) [firstTwo, otherOne, .apply, .apply] fx s' ∧
    commits fx = [(1, ⟨5, .app 7⟩), (2, ⟨6, .app 9⟩)] ∧ Eff.rollback 2 ⟨5, .app 8⟩ ∈ fx ∧
    ∀ before i e after, fx = before ++ .writeAt i e :: after → ∀ k, i < k → unsettled k before = none := by
  obtain ⟨s', fx, h, hp⟩ := Srv.runs_witness (s := boot 1 {} Env.plain { config := conf3 }) [firstTwo, otherOne, .apply, .apply]
    (fun _ fx => decide (commits fx = [(1, ⟨5, .app 7⟩), (2, ⟨6, .app 9⟩)]) && decide (Eff.rollback 2 ⟨5, .app 8⟩ ∈ fx) &&
      decide (fx = [.saveState 5 (-1), .event .becomeFollower, .append ⟨5, .app 7⟩, .preCommit 1 ⟨5, .app 7⟩, .append ⟨5, .app 8⟩,
        .preCommit 2 ⟨5, .app 8⟩, .reply { type := .appendResp, term := 5, src := 1, dst := 2, nextIdx := 3, accepted := true },
        .saveState 6 (-1), .event .becomeFollower, .rollback 2 ⟨5, .app 8⟩, .writeAt 2 ⟨6, .app 9⟩, .preCommit 2 ⟨6, .app 9⟩, .advance 2,
        .reply { type := .appendResp, term := 6, src := 1, dst := 3, nextIdx := 3, accepted := true },
        .commit 1 ⟨5, .app 7⟩, .commit 2 ⟨6, .app 9⟩])) (by decide +kernel)
  simp only [Bool.and_eq_true, decide_eq_true_eq] at hp
  obtain ⟨⟨h1, h2⟩, h3⟩ := hp
  refine ⟨s', fx, h, h1, h2, ?_⟩
  have : Each OverLast [] fx := by
    rw [h3]
    simp only [each_cons, OverLast, true_and, List.nil_append, List.cons_append]
    refine ⟨fun k hk => ?_, each_nil⟩
    have h1 : ¬ 1 = k := by omega
    have h2 : ¬ 2 = k := by omega
    simp only [unsettled, List.foldl_cons, List.foldl_nil, leftAt, if_neg h1, if_neg h2]
  intro before i e after hf
  have := this before _ after hf
  rw [List.nil_append] at this
  exact this

end Cs.Raft
