import Verif.LogStore.Threads
import Verif.LogStore.Props

/-!
# Calls of different threads take effect one after the other (C112)
-/

namespace Cs.LogStore
open Cs Cs.Buffer

/-! ## Specification -/

/-- What a thread is doing, seen from outside: nothing, it has called a function, or the function has taken effect and will answer. -/
inductive Job where
  | idle
  | pending (op : Op)
  | done (r : Except Fault Res)

/-- A store whose functions take effect at once. -/
structure Atomic (σ : Type) where
  st : σ
  thr : Nat → Job

/-- A thread calls a function, the function takes effect, or it returns. `E` says what a function does. -/
inductive Atomic.Step {σ : Type} (E : σ → Op → Except Fault Res → σ → Prop) : Atomic σ → Option Label → Atomic σ → Prop
  | call {z : Atomic σ} {t : Nat} {op : Op} : z.thr t = .idle → Step E z (some (.call t op)) { z with thr := setThr z.thr t (.pending op) }
  | effect {z : Atomic σ} {t : Nat} {op : Op} {r : Except Fault Res} {st : σ} : z.thr t = .pending op → E z.st op r st →
      Step E z none ⟨st, setThr z.thr t (.done r)⟩
  | ret {z : Atomic σ} {t : Nat} {r : Except Fault Res} : z.thr t = .done r → Step E z (some (.ret t r)) { z with thr := setThr z.thr t .idle }

/-- Executions with what is seen. -/
inductive Atomic.Exec {σ : Type} (E : σ → Op → Except Fault Res → σ → Prop) (z0 : Atomic σ) : List Label → Atomic σ → Prop
  | nil : Exec E z0 [] z0
  | step {z z' : Atomic σ} {tr : List Label} {a : Option Label} : Exec E z0 tr z → Step E z a z' → Exec E z0 (tr ++ a.toList) z'

/-- Calls and answers are as if each call had taken effect at one moment between its beginning and its end. -/
def Explained {σ : Type} (E : σ → Op → Except Fault Res → σ → Prop) (st : σ) (tr : List Label) : Prop :=
  ∃ z, Atomic.Exec E ⟨st, fun _ => .idle⟩ tr z

/-- The functions as on the ideal log. -/
def byLog (l : Log) (op : Op) (r : Except Fault Res) (l' : Log) : Prop := ∃ x, r = .ok x ∧ Ideal l op x l'

/-- The functions as they are when a single thread uses the store. -/
def byStore (s : Store) (op : Op) (r : Except Fault Res) (s' : Store) : Prop := op.run s = (r, s')

/-- No restriction of executions. -/
def anyStep (_ : Option Label) (_ _ : Store) : Prop := True

/-- Functions that hold the mutex of the store from the beginning to the end. -/
def Op.Whole : Op → Prop
  | .nextSlot | .startIndex | .append _ | .writeAt _ _ | .compact _ | .pack _ _ | .applyPack _ _ => True
  | _ => False

/-- Only these functions are called. -/
def wholeCalls (a : Option Label) (_ _ : Store) : Prop := ∀ t op, a = some (.call t op) → op.Whole

/-- Reading of entries that have been appended, and appending. With a cache of limited size: no `term_at` and `log_entries`. -/
def Op.Gentle (s : Store) : Op → Prop
  | .nextSlot | .startIndex | .lastEntry => True
  | .append e => 9 + e.data.length < 2 ^ 31
  | .entryAt i => s.start ≤ i ∧ i < s.start + s.count
  | .termAt i => s.bufSize = 2 ^ 31 - 1 ∧ s.start ≤ i ∧ i < s.start + s.count
  | .logEntries i _ => s.bufSize = 2 ^ 31 - 1 ∧ s.start ≤ i
  | _ => False

/-- Only these functions are called, and there is room in the store. -/
def gentleCalls (a : Option Label) (s s' : Store) : Prop :=
  (∀ t op, a = some (.call t op) → op.Gentle s) ∧ s'.dat.bytes.length < 2 ^ 31 ∧ s'.start + s'.count + 1 < 2 ^ 62

/-! ## Calls under the mutex -/

/-- The rest of a call that holds the mutex, if no other thread interferes. -/
def Pc.rest : Pc → Store → Except Fault Res × Store
  | .counted, s => wrap .nat appendEnd s
  | .written e, s => wrap .nat appendEnd { s with cache := s.cache.append e }
  | .rewritten n, s => wrap (fun _ => .done) (writeEnd n) s
  | .trimmed e n, s => wrap (fun _ => .done) (writeEnd n) { s with cache := s.cache.append e }
  | .replaced i e n, s => wrap (fun _ => .done) (writeEnd n)
      { s with cache := (if n ≤ s.count then s.cache.trim i else s.cache).append e }
  | .emptied r, s => wrap (fun _ => r) fillBuffer s
  | .changed fill r, s => if fill then wrap (fun _ => r) fillBuffer (resetCache s) else (.ok r, resetCache s)
  | .done r, s => (r, s)
  | _, s => (.error .ub, s)

theorem rest_next {pc : Pc} (h : pc.lock = .has) (s : Store) : (pc.next s).1.rest (pc.next s).2 = pc.rest s := by
  cases pc with
  | changed fill r => cases fill <;> rfl
  | ready op => cases op <;> cases h
  | written | counted | replaced | trimmed | rewritten | emptied => rfl
  | _ => cases h

theorem next_goes {pc : Pc} (h : pc.lock = .has) (s : Store) : (∃ r, (pc.next s).1 = .done r) ∨ (pc.next s).1.lock = .has := by
  cases pc with
  | changed fill r =>
    cases fill
    · exact .inl ⟨_, rfl⟩
    · exact .inr rfl
  | ready op => cases op <;> cases h
  | written | replaced | trimmed => exact .inr rfl
  | counted | rewritten | emptied => exact .inl ⟨_, rfl⟩
  | _ => cases h

theorem goOn_rest {α β : Type} {m : M Store α} {k : α → Pc} {n : α → M Store β} {g : β → Res} {s : Store}
    (h : ∀ a s', (k a).rest s' = wrap g (n a) s') : (goOn m k s).1.rest (goOn m k s).2 = wrap g (m >>= n) s := by
  unfold goOn
  cases hm : m s with
  | mk x s' =>
    cases x with
    | ok a =>
      show (k a).rest s' = _
      rw [h]
      unfold wrap
      rw [run_bind_ok hm]
    | error f =>
      unfold wrap
      rw [run_bind_err hm]
      rfl

theorem goOn_goes {α : Type} {m : M Store α} {k : α → Pc} {s : Store} (h : ∀ a, (k a).lock = .has) :
    (∃ r, (goOn m k s).1 = .done r) ∨ (goOn m k s).1.lock = .has := by
  unfold goOn
  split
  · exact .inr (h _)
  · exact .inl ⟨_, rfl⟩

theorem append_parts (e : Ent) : append e = appendFiles e >>= fun _ => modify (fun s => { s with cache := s.cache.append e }) >>= fun _ => appendEnd := by
  unfold append appendFiles appendEnd
  simp only [bind_assoc]
  rfl

theorem begin_goes {op : Op} (h : op.Whole) (s : Store) : (∃ r, (op.begin s).1 = .done r) ∨ (op.begin s).1.lock = .has := by
  cases op with
  | append | writeAt | compact | applyPack => exact goOn_goes fun _ => rfl
  | nextSlot | startIndex | pack => exact .inl ⟨_, rfl⟩
  | _ => exact h.elim

theorem writeAt_parts (i : Nat) (e : Ent) : writeAt i e = writeFiles i e >>= fun n =>
    modify (fun t => { t with cache := (if n ≤ t.count then t.cache.trim i else t.cache).append e }) >>= fun _ => writeEnd n := by
  funext s
  unfold writeAt writeFiles writeEnd
  simp only [bind_assoc]
  rw [bget, bget]
  by_cases h : i < s.start ∨ s.start + s.count < i
  · rw [if_pos h, if_pos h]; rfl
  · rw [if_neg h, if_neg h]
    simp only [bind_assoc]
    rfl

theorem compactAll_parts (i : Nat) : compactAll i = compactAllFiles i >>= fun _ => modify resetCache := by
  funext s
  unfold compactAll compactAllFiles
  simp only [bind_assoc]
  rfl

theorem compactPart_parts (i : Nat) : compactPart i = compactPartFiles i >>= fun _ => modify resetCache >>= fun _ => fillBuffer := by
  funext s
  unfold compactPart compactPartFiles
  simp only [bind_assoc]
  rfl

theorem compact_parts (i : Nat) : compact i = compactFiles i >>= fun b => modify resetCache >>= fun _ =>
    (if b then fillBuffer else pure ()) >>= fun _ => pure true := by
  funext s
  unfold compact compactFiles
  simp only [bind_assoc]
  rw [bget, bget]
  by_cases h : i < s.start
  · rw [if_pos h, if_pos h]; rfl
  · rw [if_neg h, if_neg h]
    by_cases h2 : s.start + s.count - 1 ≤ i
    · rw [if_pos h2, compactAll_parts]
      show _ = ((if s.start + s.count - 1 ≤ i then _ else _) >>= _ : M Store Bool) s
      rw [if_pos h2]
      simp only [bind_assoc]
      rfl
    · rw [if_neg h2, compactPart_parts]
      show _ = ((if s.start + s.count - 1 ≤ i then _ else _) >>= _ : M Store Bool) s
      rw [if_neg h2]
      simp only [bind_assoc]
      rfl

/-- `apply_pack` behind its checks. -/
def packBody (s : Store) (i : Nat) (p : List Byte) : M Store Unit := do
  packPos (subU64 i s.start)
  packWrite (dec4 (p.take 4)).toNat (dec4 ((p.drop 4).take 4)).toNat (p.drop 8)
  packTrunc
  checkIO
  modify fun t => { t with count := subU64 i s.start + (dec4 (p.take 4)).toNat / 8 }

theorem applyPack_ite (s : Store) (i : Nat) (p : List Byte) : applyPack i p s =
    (if p.length < 4 then throw .thrown else if p.length < 8 then throw .thrown
      else if (dec4 (p.take 4)).toInt < 0 ∨ (dec4 ((p.drop 4).take 4)).toInt < 0 then throw .ub
      else packBody s i p >>= fun _ => modify resetCache >>= fun _ => fillBuffer : M Store Unit) s := by
  unfold packBody
  simp only [bind_assoc]
  rfl

theorem packFiles_ite (s : Store) (i : Nat) (p : List Byte) : packFiles i p s =
    (if p.length < 4 then throw .thrown else if p.length < 8 then throw .thrown
      else if (dec4 (p.take 4)).toInt < 0 ∨ (dec4 ((p.drop 4).take 4)).toInt < 0 then throw .ub
      else packBody s i p : M Store Unit) s := rfl

theorem bind_run {α β : Type} {m n : M Store α} {k : α → M Store β} {s : Store} (h : m s = n s) : (m >>= k) s = (n >>= k) s := by
  rw [run_bind, run_bind, h]

theorem applyPack_parts (i : Nat) (p : List Byte) : applyPack i p = packFiles i p >>= fun _ => modify resetCache >>= fun _ => fillBuffer := by
  funext s
  rw [applyPack_ite, bind_run (packFiles_ite s i p)]
  by_cases h : p.length < 4
  · rw [if_pos h, if_pos h]; rfl
  · rw [if_neg h, if_neg h]
    by_cases h2 : p.length < 8
    · rw [if_pos h2, if_pos h2]; rfl
    · rw [if_neg h2, if_neg h2]
      by_cases h3 : (dec4 (p.take 4)).toInt < 0 ∨ (dec4 ((p.drop 4).take 4)).toInt < 0
      · rw [if_pos h3, if_pos h3]; rfl
      · rw [if_neg h3, if_neg h3]

theorem rest_begin {op : Op} (h : op.Whole) (s : Store) : (op.begin s).1.rest (op.begin s).2 = op.run s := by
  cases op with
  | append e =>
    show _ = wrap .nat (append e) s
    rw [append_parts]
    exact goOn_rest fun _ _ => rfl
  | writeAt i e =>
    show _ = wrap (fun _ => .done) (writeAt i e) s
    rw [writeAt_parts]
    exact goOn_rest fun _ _ => rfl
  | compact i =>
    show _ = wrap .bool (compact i) s
    rw [compact_parts]
    refine goOn_rest fun b s' => ?_
    cases b
    · rfl
    · show wrap (fun _ => Res.bool true) fillBuffer (resetCache s') = _
      unfold wrap
      rw [show (modify resetCache >>= fun _ => (if true = true then fillBuffer else pure ()) >>= fun _ => pure true : M Store Bool) s' =
        (fillBuffer >>= fun _ => pure true : M Store Bool) (resetCache s') from rfl]
      cases hf : fillBuffer (resetCache s') with
      | mk x s'' =>
        cases x with
        | ok a => rw [run_bind_ok hf]; rfl
        | error f => rw [run_bind_err hf]
  | applyPack i p =>
    show _ = wrap (fun _ => .done) (applyPack i p) s
    rw [applyPack_parts]
    exact goOn_rest fun _ _ => rfl
  | nextSlot | startIndex | pack => rfl
  | _ => exact h.elim

/-! ### Simulation -/

theorem setThr_same {α : Type} (f : Nat → α) (t : Nat) (x : α) : setThr f t x t = x := if_pos rfl
theorem setThr_ne {α : Type} (f : Nat → α) {t u : Nat} (x : α) (h : u ≠ t) : setThr f t x u = f u := if_neg h

/-- Where a thread is and what it does as seen from outside. -/
def Corr (o : Option Nat) (s g : Store) (t : Nat) : Pc → Job → Prop
  | .idle, j => j = .idle
  | .ready op, j => j = .pending op ∧ op.Whole
  | .done r, j => j = .done r
  | pc, j => pc.lock = .has ∧ o = some t ∧ ∃ op, j = .pending op ∧ pc.rest s = op.run g

/-- The same for a thread of a system. -/
def Match (y : Sys) (z : Atomic Store) (t : Nat) : Prop := Corr y.owner y.store z.st t (y.thr t) (z.thr t)

structure SimWhole (y : Sys) (z : Atomic Store) : Prop where
  all : ∀ t, Match y z t
  free : y.owner = none → y.store = z.st
  held : ∀ t, y.owner = some t → (y.thr t).lock = .has

theorem Match.frame {y y' : Sys} {z z' : Atomic Store} {u : Nat} (h : Match y z u) (h1 : y'.thr u = y.thr u) (h2 : z'.thr u = z.thr u)
    (h3 : (y'.owner = y.owner ∧ y'.store = y.store ∧ z'.st = z.st) ∨ y.owner ≠ some u) : Match y' z' u := by
  unfold Match at h ⊢
  rw [h1, h2]
  rcases h3 with ⟨h3, h4, h5⟩ | h3
  · rw [h3, h4, h5]; exact h
  · cases hp : y.thr u with
    | idle | ready | done => rw [hp] at h; exact h
    | _ => rw [hp] at h; exact absurd h.2.1 h3

theorem Match.has {y : Sys} {z : Atomic Store} {t : Nat} (h : Match y z t) (hl : (y.thr t).lock = .has) :
    y.owner = some t ∧ ∃ op, z.thr t = .pending op ∧ (y.thr t).rest y.store = op.run z.st := by
  unfold Match at h
  cases hp : y.thr t with
  | ready op => rw [hp] at hl; cases op <;> cases hl
  | idle | done => rw [hp] at hl; cases hl
  | _ => rw [hp] at h; exact h.2

/-- Thread `t`, which holds or has just taken the mutex, gets to `pc`. -/
theorem SimWhole.go {y : Sys} {z : Atomic Store} (h : SimWhole y z) {t : Nat} {op : Op} {pc : Pc} {s : Store} (hz : z.thr t = .pending op)
    (ho : y.owner = none ∨ y.owner = some t) (hpc : (∃ r, pc = .done r) ∨ pc.lock = .has) (hr : pc.rest s = op.run z.st) :
    ∃ z', (Atomic.Step byStore z none z' ∨ z' = z) ∧ SimWhole ⟨s, if pc.lock = .has then some t else none, setThr y.thr t pc⟩ z' := by
  have hne : ∀ u, u ≠ t → y.owner ≠ some u := fun u hu hx => by
    rcases ho with ho | ho
    · rw [ho] at hx; cases hx
    · rw [ho] at hx; exact hu (Option.some.inj hx).symm
  rcases hpc with ⟨r, rfl⟩ | hpc
  · refine ⟨⟨s, setThr z.thr t (.done r)⟩, .inl (.effect hz hr.symm), ?_, fun _ => rfl, fun _ hx => by cases hx⟩
    intro u
    by_cases hu : u = t
    · subst hu
      show Corr _ _ _ u (setThr y.thr u (Pc.done r) u) _
      rw [setThr_same]
      exact setThr_same ..
    · exact (h.all u).frame (setThr_ne _ _ hu) (setThr_ne _ _ hu) (.inr (hne u hu))
  · refine ⟨z, .inr rfl, ?_, ?_, ?_⟩
    · intro u
      by_cases hu : u = t
      · subst hu
        show Corr _ _ _ u (setThr y.thr u pc u) _
        rw [setThr_same]
        have hown : (if pc.lock = .has then some u else none) = some u := if_pos hpc
        cases pc with
        | idle | done => cases hpc
        | ready op => cases op <;> cases hpc
        | _ => exact ⟨hpc, hown, op, hz, hr⟩
      · exact (h.all u).frame (setThr_ne _ _ hu) rfl (.inr (hne u hu))
    · intro hx
      rw [if_pos hpc] at hx; cases hx
    · intro u hx
      rw [if_pos hpc] at hx
      cases hx
      show (setThr y.thr t pc t).lock = _
      rw [setThr_same]; exact hpc

theorem SimWhole.step {y y' : Sys} {z : Atomic Store} {a : Option Label} (h : SimWhole y z) (hs : Sys.Step y a y')
    (hp : wholeCalls a y.store y'.store) : ∃ z', (Atomic.Step byStore z a z' ∨ (a = none ∧ z' = z)) ∧ SimWhole y' z' := by
  cases hs with
  | @call t op hi hn =>
    have hm := h.all t
    unfold Match at hm
    rw [hi] at hm
    refine ⟨_, .inl (.call hm), ?_, h.free, ?_⟩
    · intro u
      by_cases hu : u = t
      · subst hu
        show Corr _ _ _ u (setThr y.thr u (Pc.ready op) u) _
        rw [setThr_same]
        exact ⟨setThr_same .., hp _ _ rfl⟩
      · exact (h.all u).frame (setThr_ne _ _ hu) (setThr_ne _ _ hu) (.inl ⟨rfl, rfl, rfl⟩)
    · intro u hx
      have := h.held u hx
      by_cases hu : u = t
      · subst hu; rw [hi] at this; cases this
      · show (setThr y.thr t (Pc.ready op) u).lock = _
        rw [setThr_ne _ _ hu]; exact this
  | @ret t r hi =>
    have hm := h.all t
    unfold Match at hm
    rw [hi] at hm
    refine ⟨_, .inl (.ret hm), ?_, h.free, ?_⟩
    · intro u
      by_cases hu : u = t
      · subst hu
        show Corr _ _ _ u (setThr y.thr u Pc.idle u) _
        rw [setThr_same]
        exact setThr_same ..
      · exact (h.all u).frame (setThr_ne _ _ hu) (setThr_ne _ _ hu) (.inl ⟨rfl, rfl, rfl⟩)
    · intro u hx
      have := h.held u hx
      by_cases hu : u = t
      · subst hu; rw [hi] at this; cases this
      · show (setThr y.thr t Pc.idle u).lock = _
        rw [setThr_ne _ _ hu]; exact this
  | @run t hb hl =>
    have key : ∃ z', (Atomic.Step byStore z none z' ∨ z' = z) ∧
        SimWhole ⟨((y.thr t).next y.store).2, if ((y.thr t).next y.store).1.lock = .has then some t else none,
          setThr y.thr t ((y.thr t).next y.store).1⟩ z' ∧ (y.thr t).lock ≠ .free := by
      by_cases hh : (y.thr t).lock = .has
      · obtain ⟨ho, op, hz, hr⟩ := (h.all t).has hh
        obtain ⟨z', h1, h2⟩ := h.go hz (.inr ho) (next_goes hh y.store) ((rest_next hh y.store).trans hr)
        exact ⟨z', h1, h2, by rw [hh]; decide⟩
      · have hm := h.all t
        unfold Match at hm
        cases hpc : y.thr t with
        | idle | done => rw [hpc] at hb; exact hb.elim
        | ready op =>
          rw [hpc] at hm hl
          have hlk : (Pc.ready op).lock = .takes := by
            have := hm.2
            cases op <;> first | rfl | exact this.elim
          have ho := hl hlk
          have hst := h.free ho
          obtain ⟨z', h1, h2⟩ := h.go hm.1 (.inl ho) (begin_goes hm.2 y.store) (by rw [rest_begin hm.2, hst])
          exact ⟨z', h1, h2, by rw [hlk]; decide⟩
        | _ => rw [hpc] at hm hh; exact absurd hm.1 hh
    obtain ⟨z', h1, h2, h3⟩ := key
    refine ⟨z', h1.imp id fun x => ⟨rfl, x⟩, ?_⟩
    rw [show ownerAfter y.owner t (y.thr t) ((y.thr t).next y.store).1 = if ((y.thr t).next y.store).1.lock = .has then some t else none from
      if_neg h3]
    exact h2

/-- Functions that hold the mutex from the beginning to the end take effect one after the other, each as when a single thread uses the
store. -/
theorem whole_calls_in_turn {s : Store} {tr : List Label} {y : Sys} (h : Sys.Exec wholeCalls (Sys.quiet s) tr y) : Explained byStore s tr := by
  have : ∃ z, Atomic.Exec byStore ⟨s, fun _ => .idle⟩ tr z ∧ SimWhole y z := by
    induction h with
    | nil => exact ⟨_, .nil, fun _ => rfl, fun _ => rfl, fun _ hx => by cases hx⟩
    | @step y1 y2 tr a _ hs hp ih =>
      obtain ⟨z, h1, h2⟩ := ih
      obtain ⟨z', h3, h4⟩ := h2.step hs hp
      refine ⟨z', ?_, h4⟩
      rcases h3 with h3 | ⟨rfl, rfl⟩
      · exact h1.step h3
      · simpa using h1
  obtain ⟨z, h1, _⟩ := this
  exact ⟨z, h1⟩

/-! ## Appending and reading -/

/-- A store whose files have the entries `es`, that counts `n` of them, and whose cache has the end of `l`. -/
def Phase (s : Store) (l : Log) (es : List Ent) (n : Nat) : Prop := ∃ ip dp sp f bs,
  s = ⟨⟨idxBytes 0 es, ip, false⟩, ⟨datBytes es, dp, false⟩, ⟨le8 (BitVec.ofNat 64 l.start), sp, false⟩, n, l.start,
    ⟨f, l.ents.drop (f - l.start), bs⟩, bs⟩ ∧ WinOk l f bs ∧ 1 ≤ bs ∧ Log.Fits ⟨l.start, es⟩

theorem Phase.rep {s : Store} {l : Log} (h : Phase s l l.ents l.ents.length) : Rep s l l.ents := by
  obtain ⟨ip, dp, sp, f, bs, rfl, h1, h2, h3⟩ := h
  exact Rep.mk' ip dp sp rfl h1 h2 h3

theorem Rep.phase {s : Store} {l : Log} (h : Rep s l l.ents) : Phase s l l.ents l.ents.length := by
  obtain ⟨ip, dp, sp, f, bs, h1, h2, h3, -, -⟩ := h.parts
  exact ⟨ip, dp, sp, f, bs, h1, h2, h3, h.fits⟩

/-- The store fits to the log and to where the owner of the mutex is. -/
def PhaseAt (s : Store) (l : Log) : Option Pc → Prop
  | none => Phase s l l.ents l.ents.length
  | some (.written e) => Phase s l (l.ents ++ [e]) l.ents.length
  | some .counted => ∃ A e, l.ents = A ++ [e] ∧ Phase s l l.ents A.length
  | _ => False

/-- What threads see of the store without the mutex. -/
structure Seen (s : Store) (l : Log) : Prop where
  start : s.start = l.start
  count : s.count ≤ l.ents.length
  win : WinOk l s.cache.first s.bufSize
  buf : s.cache.buf = l.ents.drop (s.cache.first - l.start)

theorem PhaseAt.seen {s : Store} {l : Log} {o : Option Pc} (h : PhaseAt s l o) : Seen s l := by
  have key : ∀ es n, n ≤ l.ents.length → Phase s l es n → Seen s l := by
    rintro es n hn ⟨ip, dp, sp, f, bs, rfl, h1, h2, h3⟩
    exact ⟨rfl, hn, h1, rfl⟩
  unfold PhaseAt at h
  split at h
  · exact key _ _ (Nat.le_refl _) h
  · exact key _ _ (Nat.le_refl _) h
  · obtain ⟨A, e, h1, h2⟩ := h
    exact key _ _ (by rw [h1]; simp) h2
  · exact h.elim

/-- The calls that are allowed. -/
def Op.Fine (l : Log) (bs : Nat) : Op → Prop
  | .nextSlot | .startIndex | .lastEntry => True
  | .append e => 9 + e.data.length < 2 ^ 31
  | .entryAt i => l.start ≤ i ∧ i < l.next
  | .termAt i => bs = 2 ^ 31 - 1 ∧ l.start ≤ i ∧ i < l.next
  | .logEntries i _ => bs = 2 ^ 31 - 1 ∧ l.start ≤ i
  | _ => False

theorem Seen.fine {s : Store} {l : Log} (h : Seen s l) {op : Op} (ho : op.Gentle s) : op.Fine l s.bufSize := by
  have h1 := h.start
  have h2 := h.count
  have hn : l.next = l.start + l.ents.length := rfl
  cases op with
  | nextSlot | startIndex | lastEntry | append => exact ho
  | entryAt i => obtain ⟨a, b⟩ := ho; exact ⟨by omega, by omega⟩
  | termAt i => obtain ⟨c, a, b⟩ := ho; exact ⟨c, by omega, by omega⟩
  | logEntries i j => obtain ⟨c, a⟩ := ho; exact ⟨c, by omega⟩
  | _ => exact ho.elim

/-- Where a thread is and what it does as seen from outside. -/
def Goes (o : Option Nat) (s : Store) (l : Log) (t : Nat) : Pc → Job → Prop
  | .idle, j => j = .idle
  | .ready op, j => j = .pending op ∧ op.Fine l s.bufSize
  | .done r, j => j = .done r
  | .written e, j => j = .pending (.append e) ∧ o = some t
  | .counted, j => j = .done (.ok (.nat (l.next - 1))) ∧ o = some t
  | .noEntry i, j => j = .pending (.entryAt i) ∧ l.start ≤ i ∧ i < l.next ∧ i < s.cache.first
  | .fromFirst i, j => j = .pending (.termAt i) ∧ s.bufSize = 2 ^ 31 - 1 ∧ l.start ≤ i ∧ i < l.next
  | .inCache i, j => j = .pending (.termAt i) ∧ s.bufSize = 2 ^ 31 - 1 ∧ l.start ≤ i ∧ i < l.next
  | .ranged i _ g, j => j = .done (.ok (.ents (some (((l.ents.drop (i - l.start)).take (g - i)).map some)))) ∧
      s.bufSize = 2 ^ 31 - 1 ∧ l.start ≤ i ∧ i < g ∧ g ≤ l.next
  | _, _ => False

/-- The log has become longer. -/
def Log.Longer (l l' : Log) : Prop := ∃ es, l' = ⟨l.start, l.ents ++ es⟩

theorem Log.Longer.next_le {l l' : Log} (h : l.Longer l') : l.next ≤ l'.next := by
  obtain ⟨es, rfl⟩ := h
  simp [Log.next]

theorem Log.Longer.fine {l l' : Log} (h : l.Longer l') {bs : Nat} {op : Op} (hf : op.Fine l bs) : op.Fine l' bs := by
  have h1 := h.next_le
  have h2 : l'.start = l.start := by obtain ⟨es, rfl⟩ := h; rfl
  cases op with
  | nextSlot | startIndex | lastEntry | append => exact hf
  | entryAt i => obtain ⟨a, b⟩ := hf; exact ⟨by omega, by omega⟩
  | termAt i => obtain ⟨c, a, b⟩ := hf; exact ⟨c, by omega, by omega⟩
  | logEntries i j => obtain ⟨c, a⟩ := hf; exact ⟨c, by omega⟩
  | _ => exact hf.elim

/-- Other threads are not affected. -/
theorem Goes.frame {o o' : Option Nat} {s s' : Store} {l l' : Log} {t : Nat} {pc : Pc} {j : Job} (h : Goes o s l t pc j)
    (hb : s'.bufSize = s.bufSize) (hf : s.cache.first ≤ s'.cache.first) (hl : l.Longer l') (ho : (o' = o ∧ l' = l) ∨ o ≠ some t) :
    Goes o' s' l' t pc j := by
  have h1 := hl.next_le
  have h2 : l'.start = l.start := by obtain ⟨es, rfl⟩ := hl; rfl
  cases pc with
  | idle | done => exact h
  | ready op => exact ⟨h.1, by rw [hb]; exact hl.fine h.2⟩
  | written e => rcases ho with ⟨rfl, rfl⟩ | ho; exact h; exact absurd h.2 ho
  | counted => rcases ho with ⟨rfl, rfl⟩ | ho; exact h; exact absurd h.2 ho
  | noEntry i => obtain ⟨a, b, c, d⟩ := h; exact ⟨a, by omega, by omega, by omega⟩
  | fromFirst i => obtain ⟨a, b, c, d⟩ := h; exact ⟨a, by omega, by omega, by omega⟩
  | inCache i => obtain ⟨a, b, c, d⟩ := h; exact ⟨a, by omega, by omega, by omega⟩
  | ranged i ls g =>
    obtain ⟨a, b, c, d, e⟩ := h
    refine ⟨?_, by omega, by omega, d, by omega⟩
    rw [a]
    obtain ⟨es, rfl⟩ := hl
    have hn : l.next = l.start + l.ents.length := rfl
    show _ = Job.done (.ok (.ents (some ((((l.ents ++ es).drop (i - l.start)).take (g - i)).map some))))
    rw [List.drop_append_of_le_length (by omega), List.take_append_of_le_length (by rw [List.length_drop]; omega)]
  | _ => exact h.elim

structure SimGentle (y : Sys) (z : Atomic Log) : Prop where
  all : ∀ t, Goes y.owner y.store z.st t (y.thr t) (z.thr t)
  phase : PhaseAt y.store z.st (y.owner.map y.thr)

theorem SimGentle.owner_has {y : Sys} {z : Atomic Log} (h : SimGentle y z) {t : Nat} (ho : y.owner = some t) : (y.thr t).lock = .has := by
  have := h.phase
  rw [ho] at this
  unfold PhaseAt at this
  split at this
  · rename_i heq; cases heq
  · rename_i heq; rw [Option.some.inj heq]; rfl
  · rename_i heq; rw [Option.some.inj heq]; rfl
  · exact this.elim

theorem setThr_self {α : Type} (f : Nat → α) (t : Nat) : setThr f t (f t) = f := by
  funext u
  by_cases hu : u = t
  · subst hu; exact setThr_same ..
  · exact setThr_ne _ _ hu

/-- A step without the mutex. -/
theorem SimGentle.goFree {y : Sys} {z : Atomic Log} (h : SimGentle y z) {t : Nat} {pc : Pc} {j : Job} (hlk : (y.thr t).lock ≠ .has)
    (hst : Atomic.Step byLog z none ⟨z.st, setThr z.thr t j⟩ ∨ j = z.thr t) (hg : Goes y.owner y.store z.st t pc j) :
    ∃ z', (Atomic.Step byLog z none z' ∨ z' = z) ∧ SimGentle ⟨y.store, y.owner, setThr y.thr t pc⟩ z' := by
  refine ⟨⟨z.st, setThr z.thr t j⟩, hst.imp id fun hj => by rw [hj, setThr_self], ?_, ?_⟩
  · intro u
    by_cases hu : u = t
    · subst hu
      show Goes _ _ _ u (setThr y.thr u pc u) (setThr z.thr u j u)
      rw [setThr_same, setThr_same]; exact hg
    · show Goes _ _ _ u (setThr y.thr t pc u) (setThr z.thr t j u)
      rw [setThr_ne _ _ hu, setThr_ne _ _ hu]; exact h.all u
  · have := h.phase
    cases ho : y.owner with
    | none => rw [ho] at this; exact this
    | some u =>
      have hu : u ≠ t := fun hx => hlk (hx ▸ h.owner_has ho)
      rw [ho] at this
      show PhaseAt y.store z.st (some (setThr y.thr t pc u))
      rw [setThr_ne _ _ hu]; exact this

/-- A step with the mutex. -/
theorem SimGentle.goLock {y : Sys} {z : Atomic Log} (h : SimGentle y z) {t : Nat} {pc : Pc} {j : Job} {s : Store} {l : Log} {o : Option Nat}
    (hown : y.owner = none ∨ y.owner = some t) (hb : s.bufSize = y.store.bufSize) (hf : y.store.cache.first ≤ s.cache.first)
    (hl : z.st.Longer l) (hst : Atomic.Step byLog z none ⟨l, setThr z.thr t j⟩ ∨ (j = z.thr t ∧ l = z.st)) (hg : Goes o s l t pc j)
    (ho : (o = none ∧ PhaseAt s l none) ∨ (o = some t ∧ PhaseAt s l (some pc))) :
    ∃ z', (Atomic.Step byLog z none z' ∨ z' = z) ∧ SimGentle ⟨s, o, setThr y.thr t pc⟩ z' := by
  refine ⟨⟨l, setThr z.thr t j⟩, hst.imp id fun ⟨hj, hl⟩ => by rw [hj, setThr_self, hl], ?_, ?_⟩
  · intro u
    by_cases hu : u = t
    · subst hu
      show Goes _ _ _ u (setThr y.thr u pc u) (setThr z.thr u j u)
      rw [setThr_same, setThr_same]; exact hg
    · show Goes _ _ _ u (setThr y.thr t pc u) (setThr z.thr t j u)
      rw [setThr_ne _ _ hu, setThr_ne _ _ hu]
      refine (h.all u).frame hb hf hl (.inr ?_)
      rcases hown with hown | hown <;> rw [hown]
      · intro hx; cases hx
      · intro hx; exact hu (Option.some.inj hx).symm
  · rcases ho with ⟨rfl, ho⟩ | ⟨rfl, ho⟩
    · exact ho
    · show PhaseAt s l (some (setThr y.thr t pc t))
      rw [setThr_same]; exact ho

theorem appendFiles_ok {s : Store} {l : Log} (h : Phase s l l.ents l.ents.length) {e : Ent} (he : 9 + e.data.length < 2 ^ 31) :
    ∃ s', appendFiles e s = (.ok (), s') ∧ s'.dat.bytes.length = dataSize (l.ents ++ [e]) ∧ s'.start = l.start ∧ s'.count = l.ents.length ∧
      s'.cache = s.cache ∧ s'.bufSize = s.bufSize ∧ (Log.Fits ⟨l.start, l.ents ++ [e]⟩ → Phase s' l (l.ents ++ [e]) l.ents.length) := by
  obtain ⟨ip, dp, sp, f, bs, rfl, h1, h2, h3⟩ := h
  unfold appendFiles
  rw [bIdx se, bDat se, bDat tl, bIdx wrt, serialize_ok e (by omega), blift]
  have hd : onDat (write e.bytes) ⟨⟨overwrite (idxBytes 0 l.ents) (idxBytes 0 l.ents).length (le8 (BitVec.ofNat 64 (datBytes l.ents).length)),
      (idxBytes 0 l.ents).length + (le8 (BitVec.ofNat 64 (datBytes l.ents).length)).length, false⟩, ⟨datBytes l.ents, (datBytes l.ents).length, false⟩,
      ⟨le8 (BitVec.ofNat 64 l.start), sp, false⟩, l.ents.length, l.start, ⟨f, l.ents.drop (f - l.start), bs⟩, bs⟩ =
      (.ok (), ⟨⟨idxBytes 0 (l.ents ++ [e]), (idxBytes 0 l.ents).length + (le8 (BitVec.ofNat 64 (datBytes l.ents).length)).length, false⟩,
        ⟨datBytes (l.ents ++ [e]), (datBytes l.ents).length + e.bytes.length, false⟩,
        ⟨le8 (BitVec.ofNat 64 l.start), sp, false⟩, l.ents.length, l.start, ⟨f, l.ents.drop (f - l.start), bs⟩, bs⟩) := by
    rw [run_onDat wrt, overwrite_end, overwrite_end, idxBytes_append, datBytes_append]
    simp
  rw [hd]
  exact ⟨_, rfl, datBytes_length _, rfl, rfl, rfl, rfl, fun hf => ⟨_, _, _, _, _, rfl, h1, h2, hf⟩⟩

theorem entryAt_split (i : Nat) (s : Store) : entryAt i s = match s.cache.at i with
    | some e => (.ok (some e), s)
    | none => entryFile i s := by
  unfold entryAt entryFile
  rw [bget]
  cases s.cache.at i with
  | some e => rfl
  | none =>
    show _ = ((get >>= _ : M Store (Option Ent)) s)
    rw [bget]
    by_cases h : i < s.start
    · rw [if_pos h, if_pos h]; rfl
    · rw [if_neg h, if_neg h]

theorem Seen.get {s : Store} {l : Log} (h : Seen s l) {i : Nat} (h1 : l.start ≤ i) (hf : s.cache.first ≤ i) : s.cache.at i = l.get? i := by
  rw [get?_eq h1]
  unfold Cache.at
  rw [if_neg (by omega), h.buf, List.getElem?_drop]
  congr 1
  have := h.win.1
  omega

theorem Seen.first {s : Store} {l : Log} (h : Seen s l) (hb : s.bufSize = 2 ^ 31 - 1) : s.cache.first = l.start := h.win.2.2.2 hb

theorem get_known {l : Log} {i : Nat} (h1 : l.start ≤ i) (h2 : i < l.next) : ∃ e, l.get? i = some e := by
  rw [get?_eq h1]
  have hn : l.next = l.start + l.ents.length := rfl
  exact ⟨_, List.getElem?_eq_getElem (by omega)⟩

theorem Seen.last {s : Store} {l : Log} (h : Seen s l) : s.cache.last = l.ents.getLast? := by
  unfold Cache.last
  rw [h.buf]
  rcases h.win.2.1 with h1 | ⟨h1, h2⟩
  · rw [List.getLast?_drop, if_neg (by omega)]
  · rw [h1, List.drop_nil]

theorem Seen.fill {s : Store} {l : Log} (h : Seen s l) (hb : s.bufSize = 2 ^ 31 - 1) {i g : Nat} (h1 : l.start ≤ i) (h2 : i < g)
    (h3 : g ≤ l.next) : s.cache.fill i g = .ok (((l.ents.drop (i - l.start)).take (g - i)).map some) := by
  have hf := h.first hb
  have hn : l.next = l.start + l.ents.length := rfl
  have hbuf : s.cache.buf = l.ents := by rw [h.buf, hf, Nat.sub_self, List.drop_zero]
  unfold Cache.fill
  rw [hf, hbuf, if_neg (by omega)]
  by_cases hi : l.start < i
  · rw [if_pos hi, if_pos (by omega)]
  · obtain rfl : i = l.start := by omega
    rw [if_neg hi, if_pos (by omega), Nat.sub_self, List.drop_zero]
    rfl

theorem Log.Longer.refl (l : Log) : l.Longer l := ⟨[], by rw [List.append_nil]⟩

theorem range_good {l : Log} {i j : Nat} (h1 : l.start ≤ i) :
    l.range i j = (l.ents.drop (i - l.start)).take (min (j - l.start) l.ents.length + l.start - i) := by
  unfold Log.range
  rcases Nat.le_total (j - l.start) l.ents.length with h | h
  · rw [Nat.min_eq_left h]
    by_cases hj : l.start ≤ j
    · congr 1; omega
    · rw [show j - i = 0 by omega, show j - l.start + l.start - i = 0 by omega]
  · rw [Nat.min_eq_right h, List.take_of_length_le (by rw [List.length_drop]; omega),
      List.take_of_length_le (by rw [List.length_drop]; omega)]

/-- The first step of a call. -/
theorem SimGentle.ready {y : Sys} {z : Atomic Log} (h : SimGentle y z) {t : Nat} {op : Op} (hz : z.thr t = .pending op)
    (hop : op.Fine z.st y.store.bufSize) (hpc : y.thr t = .ready op) (hl : (Pc.ready op).lock = .takes → y.owner = none)
    (hroom : (op.begin y.store).2.dat.bytes.length < 2 ^ 31 ∧ (op.begin y.store).2.start + (op.begin y.store).2.count + 1 < 2 ^ 62) :
    ∃ z', (Atomic.Step byLog z none z' ∨ z' = z) ∧
      SimGentle ⟨(op.begin y.store).2, ownerAfter y.owner t (.ready op) (op.begin y.store).1, setThr y.thr t (op.begin y.store).1⟩ z' := by
  have hseen := h.phase.seen
  have hlk : (y.thr t).lock ≠ .has := by rw [hpc]; cases op <;> (intro hx; cases hx)
  have hn : z.st.next = z.st.start + z.st.ents.length := rfl
  cases op with
  | nextSlot =>
    have ho := hl rfl
    have hp := h.phase
    rw [ho] at hp
    have hc := (Phase.rep hp).count
    have := h.goLock (t := t) (pc := .done (.ok (.nat (y.store.start + y.store.count)))) (j := .done (.ok (.nat (y.store.start + y.store.count))))
      (s := y.store) (l := z.st) (o := none) (.inl ho) rfl (Nat.le_refl _) (.refl _)
      (.inl (.effect hz ⟨_, rfl, by rw [hseen.start, hc]; rfl, rfl⟩)) rfl (.inl ⟨rfl, hp⟩)
    exact this
  | startIndex =>
    have ho := hl rfl
    have hp := h.phase
    rw [ho] at hp
    exact h.goLock (t := t) (pc := .done (.ok (.nat y.store.start))) (j := .done (.ok (.nat y.store.start)))
      (s := y.store) (l := z.st) (o := none) (.inl ho) rfl (Nat.le_refl _) (.refl _)
      (.inl (.effect hz ⟨_, rfl, by rw [hseen.start], rfl⟩)) rfl (.inl ⟨rfl, hp⟩)
  | lastEntry =>
    exact h.goFree hlk (pc := .done (.ok (.ent (some (y.store.cache.last.getD emptyEntry)))))
      (j := .done (.ok (.ent (some (y.store.cache.last.getD emptyEntry)))))
      (.inl (.effect hz ⟨_, rfl, by rw [hseen.last]; rfl, rfl⟩)) rfl
  | append e =>
    have ho := hl rfl
    have hp := h.phase
    rw [ho] at hp
    obtain ⟨s', h1, h2, h3, h4, h5, h6, h7⟩ := appendFiles_ok hp hop
    have hb : Op.begin (.append e) y.store = (.written e, s') := by
      show goOn (appendFiles e) (fun _ => .written e) y.store = _
      unfold goOn
      rw [h1]
    rw [hb] at hroom ⊢
    have hfit : Log.Fits ⟨z.st.start, z.st.ents ++ [e]⟩ := by
      refine ⟨by rw [← h2]; exact hroom.1, ?_, (Phase.rep hp).fits.2.2⟩
      have := hroom.2
      simp only [h3, h4] at this
      simp only [Log.next, List.length_append, List.length_cons, List.length_nil]
      omega
    exact h.goLock (t := t) (pc := .written e) (j := .pending (.append e)) (s := s') (l := z.st) (o := some t) (.inl ho) h6
      (by rw [h5]; exact Nat.le_refl _) (.refl _) (.inr ⟨hz.symm, rfl⟩) ⟨rfl, rfl⟩ (.inr ⟨rfl, h7 hfit⟩)
  | entryAt i =>
    obtain ⟨a, b⟩ := hop
    by_cases hf : y.store.cache.first ≤ i
    · obtain ⟨e, he⟩ := get_known a b
      have hb : Op.begin (.entryAt i) y.store = (.done (.ok (.ent (some e))), y.store) := by
        show (match y.store.cache.at i with | some e => _ | none => _) = _
        rw [hseen.get a hf, he]
      rw [hb]
      exact h.goFree hlk (pc := .done (.ok (.ent (some e)))) (j := .done (.ok (.ent (some e))))
        (.inl (.effect hz ⟨_, rfl, by rw [he], rfl⟩)) rfl
    · have hb : Op.begin (.entryAt i) y.store = (.noEntry i, y.store) := by
        show (match y.store.cache.at i with | some e => _ | none => _) = _
        have : y.store.cache.at i = none := by unfold Cache.at; rw [if_pos (by omega)]
        rw [this]
      rw [hb]
      exact h.goFree hlk (pc := .noEntry i) (j := .pending (.entryAt i)) (.inr hz.symm) ⟨rfl, a, b, by omega⟩
  | termAt i =>
    obtain ⟨c, a, b⟩ := hop
    have hb : Op.begin (.termAt i) y.store = (.fromFirst i, y.store) := if_pos (by rw [hseen.first c]; exact a)
    rw [hb]
    exact h.goFree hlk (pc := .fromFirst i) (j := .pending (.termAt i)) (.inr hz.symm) ⟨rfl, c, a, b⟩
  | logEntries i j =>
    obtain ⟨c, a⟩ := hop
    have ho := hl rfl
    have hp := h.phase
    rw [ho] at hp
    have hc := (Phase.rep hp).count
    have hs := hseen.start
    by_cases hd : j ≤ i ∨ y.store.start + y.store.count ≤ i
    · have hb : Op.begin (.logEntries i j) y.store = (.done (.ok (.ents none)), y.store) := by
        show (if i < y.store.start then _ else if j ≤ i ∨ y.store.start + y.store.count ≤ i then _ else _) = _
        rw [if_neg (by omega), if_pos hd]
      rw [hb]
      have hr : z.st.range i j = [] := by
        unfold Log.range
        rcases hd with hd | hd
        · rw [show j - i = 0 by omega, List.take_zero]
        · rw [List.drop_eq_nil_of_le (by omega), List.take_nil]
      exact h.goLock (t := t) (pc := .done (.ok (.ents none))) (j := .done (.ok (.ents none)))
        (s := y.store) (l := z.st) (o := none) (.inl ho) rfl (Nat.le_refl _) (.refl _)
        (.inl (.effect hz ⟨_, rfl, by rw [if_pos hr], rfl⟩)) rfl (.inl ⟨rfl, hp⟩)
    · have hb : Op.begin (.logEntries i j) y.store =
          (.ranged i (i - y.store.start) (min (j - y.store.start) y.store.count + y.store.start), y.store) := by
        show (if i < y.store.start then _ else if j ≤ i ∨ y.store.start + y.store.count ≤ i then _ else _) = _
        rw [if_neg (by omega), if_neg hd]
      rw [hb]
      have hr := range_good (l := z.st) (i := i) (j := j) a
      have hr2 : z.st.range i j ≠ [] := by
        intro hx
        have := congrArg List.length hx
        unfold Log.range at this
        simp only [List.length_take, List.length_drop, List.length_nil] at this
        omega
      rw [← hs, ← hc] at hr
      exact h.goLock (t := t) (pc := .ranged i (i - y.store.start) (min (j - y.store.start) y.store.count + y.store.start))
        (j := .done (.ok (.ents (some ((z.st.range i j).map some)))))
        (s := y.store) (l := z.st) (o := none) (.inl ho) rfl (Nat.le_refl _) (.refl _)
        (.inl (.effect hz ⟨_, rfl, by rw [if_neg hr2], rfl⟩)) ⟨by rw [hr, hs], c, a, by omega, by omega⟩ (.inl ⟨rfl, hp⟩)
  | _ => exact hop.elim

theorem appendEnd_ok {s : Store} {l : Log} {A : List Ent} {e : Ent} (hA : l.ents = A ++ [e]) (h : Phase s l l.ents A.length) :
    ∃ s', appendEnd s = (.ok (l.next - 1), s') ∧ Phase s' l l.ents l.ents.length ∧ s'.cache = s.cache ∧ s'.bufSize = s.bufSize := by
  obtain ⟨ip, dp, sp, f, bs, rfl, h1, h2, h3⟩ := h
  unfold appendEnd
  rw [bmod, bchk, bget]
  refine ⟨⟨⟨idxBytes 0 l.ents, ip, false⟩, ⟨datBytes l.ents, dp, false⟩, ⟨le8 (BitVec.ofNat 64 l.start), sp, false⟩, A.length + 1, l.start,
      ⟨f, l.ents.drop (f - l.start), bs⟩, bs⟩, ?_, ⟨ip, dp, sp, f, bs, ?_, h1, h2, h3⟩, rfl, rfl⟩
  · show (Except.ok (l.start + (A.length + 1) - 1), _) = _
    rw [Log.next, hA, List.length_append, List.length_singleton]
  · rw [hA, List.length_append, List.length_singleton]

/-- The cache remains as it is. -/
def Keeps {α : Type} (m : M Store α) : Prop := ∀ s, (m s).2.cache = s.cache

theorem Keeps.bind {α β : Type} {m : M Store α} {k : α → M Store β} (h1 : Keeps m) (h2 : ∀ a, Keeps (k a)) : Keeps (m >>= k) := by
  intro s
  have h := h1 s
  cases hm : m s with
  | mk x s' =>
    rw [hm] at h
    cases x with
    | ok a => rw [run_bind_ok hm]; exact (h2 a s').trans h
    | error f => rw [run_bind_err hm]; exact h

theorem keeps_entryFile (i : Nat) : Keeps (entryFile i) := by
  have hg : Keeps (get : M Store Store) := fun _ => rfl
  have hp : ∀ {α : Type} (a : α), Keeps (pure a : M Store α) := fun _ _ => rfl
  have ht : ∀ {α : Type} f, Keeps (throw f : M Store α) := fun _ _ => rfl
  have hi : ∀ {α : Type} (m : M File α), Keeps (onIdx m) := fun _ _ => rfl
  have hd : ∀ {α : Type} (m : M File α), Keeps (onDat m) := fun _ _ => rfl
  have hl : ∀ {α : Type} (x : Except Fault α), Keeps (lift x) := fun x _ => by cases x <;> rfl
  have hc : Keeps checkIO := by
    refine hg.bind fun s => ?_
    by_cases h : s.dat.bad = true ∨ s.idx.bad = true
    · rw [if_pos h]; exact ht _
    · rw [if_neg h]; exact hp _
  unfold entryFile
  refine hg.bind fun s => ?_
  by_cases h : i < s.start
  · rw [if_pos h]; exact ht _
  · rw [if_neg h]
    refine hc.bind fun _ => ?_
    by_cases h2 : s.start + s.count ≤ i
    · rw [if_pos h2]; exact hp _
    · rw [if_neg h2]
      exact (hi _).bind fun _ => (hi _).bind fun _ => (hi _).bind fun _ => (hd _).bind fun _ => (hd _).bind fun _ => (hl _).bind fun _ => hp _

theorem SimGentle.run {y : Sys} {z : Atomic Log} (h : SimGentle y z) {t : Nat} (hb : (y.thr t).busy) (hl : (y.thr t).lock = .takes → y.owner = none)
    (hroom : ((y.thr t).next y.store).2.dat.bytes.length < 2 ^ 31 ∧
      ((y.thr t).next y.store).2.start + ((y.thr t).next y.store).2.count + 1 < 2 ^ 62) :
    ∃ z', (Atomic.Step byLog z none z' ∨ z' = z) ∧ SimGentle ⟨((y.thr t).next y.store).2,
      ownerAfter y.owner t (y.thr t) ((y.thr t).next y.store).1, setThr y.thr t ((y.thr t).next y.store).1⟩ z' := by
  have hg := h.all t
  have hseen := h.phase.seen
  cases hpc : y.thr t with
  | idle | done => rw [hpc] at hb; exact hb.elim
  | ready op =>
    rw [hpc] at hg hl hroom
    exact h.ready hg.1 hg.2 hpc hl hroom
  | written e =>
    rw [hpc] at hg
    obtain ⟨hz, ho⟩ := hg
    have hp := h.phase
    rw [ho, Option.map_some, hpc] at hp
    obtain ⟨ip, dp, sp, f, bs, hs, h1, h2, h3⟩ := hp
    obtain ⟨f', hc, hw, hf⟩ := cache_append_ok (C := z.st.ents) e e rfl h1.1 h1.le h1.2.2.1 h1.2.2.2 h2 h3
    have hcache : y.store.cache.append e = ⟨f', (z.st.ents ++ [e]).drop (f' - z.st.start), bs⟩ := by rw [hs]; exact hc
    exact h.goLock (t := t) (pc := .counted) (j := .done (.ok (.nat z.st.next))) (s := { y.store with cache := y.store.cache.append e })
      (l := ⟨z.st.start, z.st.ents ++ [e]⟩) (o := some t) (.inr ho) rfl
      (by show y.store.cache.first ≤ (y.store.cache.append e).first; rw [hcache, hs]; exact hf) ⟨[e], rfl⟩
      (.inl (.effect hz ⟨_, rfl, rfl, rfl⟩))
      ⟨by simp only [Log.next, List.length_append, List.length_singleton]; rw [← Nat.add_assoc, Nat.add_sub_cancel], rfl⟩
      (.inr ⟨rfl, z.st.ents, e, rfl, ip, dp, sp, f', bs, by rw [hcache, hs], hw, h2, h3⟩)
  | counted =>
    rw [hpc] at hg
    obtain ⟨hz, ho⟩ := hg
    have hp := h.phase
    rw [ho, Option.map_some, hpc] at hp
    obtain ⟨A, e, hA, hp⟩ := hp
    obtain ⟨s', h1, h2, h3, h4⟩ := appendEnd_ok hA hp
    have hn : Pc.next .counted y.store = (.done (.ok (.nat (z.st.next - 1))), s') := by
      show ends_ (wrap .nat appendEnd y.store) = _
      unfold wrap
      rw [h1]
      rfl
    rw [hn]
    exact h.goLock (t := t) (pc := .done (.ok (.nat (z.st.next - 1)))) (j := .done (.ok (.nat (z.st.next - 1)))) (s := s') (l := z.st)
      (o := none) (.inr ho) h4 (by rw [h3]; exact Nat.le_refl _) (.refl _) (.inr ⟨hz.symm, rfl⟩) rfl (.inl ⟨rfl, h2⟩)
  | noEntry i =>
    rw [hpc] at hg hl
    obtain ⟨hz, a, b, c⟩ := hg
    have ho := hl rfl
    have hp := h.phase
    rw [ho] at hp
    obtain ⟨r, s', h1, h2, h3, h4⟩ := step_entryAt (Phase.rep hp) i a
    rw [view_self] at h2
    have hnone : y.store.cache.at i = none := by unfold Cache.at; rw [if_pos c]
    have hrun : entryFile i y.store = (.ok (z.st.get? i), s') := by
      rw [entryAt_split, hnone] at h1
      rw [← h2]; exact h1
    have hn : Pc.next (.noEntry i) y.store = (.done (.ok (.ent (z.st.get? i))), s') := by
      show ends_ (wrap .ent (entryFile i) y.store) = _
      unfold wrap
      rw [hrun]
      rfl
    have hfst : y.store.cache.first ≤ s'.cache.first := by
      have := keeps_entryFile i y.store
      rw [hrun] at this
      rw [show s'.cache = y.store.cache from this]
      exact Nat.le_refl _
    rw [hn]
    exact h.goLock (t := t) (pc := .done (.ok (.ent (z.st.get? i)))) (j := .done (.ok (.ent (z.st.get? i)))) (s := s') (l := z.st)
      (o := none) (.inl ho) h4 hfst (.refl _) (.inl (.effect hz ⟨_, rfl, rfl, rfl⟩)) rfl (.inl ⟨rfl, h3.phase⟩)
  | fromFirst i =>
    rw [hpc] at hg
    obtain ⟨hz, c, a, b⟩ := hg
    have hn : Pc.next (.fromFirst i) y.store = (.inCache i, y.store) := by
      refine if_pos ?_
      rw [hseen.buf, hseen.first c, Nat.sub_self, List.drop_zero]
      exact b
    rw [hn]
    exact h.goFree (by rw [hpc]; intro hx; cases hx) (pc := .inCache i) (j := .pending (.termAt i)) (.inr hz.symm) ⟨rfl, c, a, b⟩
  | inCache i =>
    rw [hpc] at hg
    obtain ⟨hz, c, a, b⟩ := hg
    obtain ⟨e, he⟩ := get_known a b
    have hn : Pc.next (.inCache i) y.store = (.done (.ok (.term e.term)), y.store) := by
      show (Pc.done (.ok (.term (match y.store.cache.at i with | some e => e.term | none => 0))), y.store) = _
      rw [hseen.get a (by rw [hseen.first c]; exact a), he]
    rw [hn]
    exact h.goFree (by rw [hpc]; intro hx; cases hx) (pc := .done (.ok (.term e.term))) (j := .done (.ok (.term e.term)))
      (.inl (.effect hz ⟨_, rfl, ⟨e, he, rfl⟩, rfl⟩)) rfl
  | ranged i ls g =>
    rw [hpc] at hg
    obtain ⟨hz, c, a, b, d⟩ := hg
    have hn : Pc.next (.ranged i ls g) y.store = (.done (.ok (.ents (some (((z.st.ents.drop (i - z.st.start)).take (g - i)).map some)))), y.store) := by
      show (match y.store.cache.fill i g with | .ok results => _ | .error f => _) = _
      rw [hseen.fill c a b d]
      exact if_neg (by rw [hseen.first c]; omega)
    rw [hn]
    exact h.goFree (by rw [hpc]; intro hx; cases hx) (j := .done (.ok (.ents (some (((z.st.ents.drop (i - z.st.start)).take (g - i)).map some)))))
      (.inr hz.symm) rfl
  | _ => rw [hpc] at hg; exact hg.elim

theorem SimGentle.step {y y' : Sys} {z : Atomic Log} {a : Option Label} (h : SimGentle y z) (hs : Sys.Step y a y')
    (hp : gentleCalls a y.store y'.store) : ∃ z', (Atomic.Step byLog z a z' ∨ (a = none ∧ z' = z)) ∧ SimGentle y' z' := by
  cases hs with
  | @call t op hi hn =>
    have hm := h.all t
    rw [hi] at hm
    have hlk : ∀ u, y.owner = some u → u ≠ t := fun u hu hx => by
      have := h.owner_has hu
      rw [hx, hi] at this; cases this
    refine ⟨_, .inl (.call hm), ?_, ?_⟩
    · intro u
      by_cases hu : u = t
      · subst hu
        show Goes _ _ _ u (setThr y.thr u (Pc.ready op) u) (setThr z.thr u (Job.pending op) u)
        rw [setThr_same, setThr_same]
        exact ⟨rfl, h.phase.seen.fine (hp.1 _ _ rfl)⟩
      · show Goes _ _ _ u (setThr y.thr t (Pc.ready op) u) (setThr z.thr t (Job.pending op) u)
        rw [setThr_ne _ _ hu, setThr_ne _ _ hu]; exact h.all u
    · have hph := h.phase
      show PhaseAt y.store z.st (y.owner.map (setThr y.thr t (Pc.ready op)))
      cases ho : y.owner with
      | none => rw [ho] at hph; exact hph
      | some u =>
        rw [ho] at hph
        rw [Option.map_some, setThr_ne _ _ (hlk u ho)]; exact hph
  | @ret t r hi =>
    have hm := h.all t
    rw [hi] at hm
    have hlk : ∀ u, y.owner = some u → u ≠ t := fun u hu hx => by
      have := h.owner_has hu
      rw [hx, hi] at this; cases this
    refine ⟨_, .inl (.ret hm), ?_, ?_⟩
    · intro u
      by_cases hu : u = t
      · subst hu
        show Goes _ _ _ u (setThr y.thr u Pc.idle u) (setThr z.thr u Job.idle u)
        rw [setThr_same, setThr_same]
        rfl
      · show Goes _ _ _ u (setThr y.thr t Pc.idle u) (setThr z.thr t Job.idle u)
        rw [setThr_ne _ _ hu, setThr_ne _ _ hu]; exact h.all u
    · have hph := h.phase
      show PhaseAt y.store z.st (y.owner.map (setThr y.thr t Pc.idle))
      cases ho : y.owner with
      | none => rw [ho] at hph; exact hph
      | some u =>
        rw [ho] at hph
        rw [Option.map_some, setThr_ne _ _ (hlk u ho)]; exact hph
  | @run t hb hl =>
    obtain ⟨z', h1, h2⟩ := h.run hb hl hp.2
    exact ⟨z', h1.imp id fun x => ⟨rfl, x⟩, h2⟩

/-- C112, `_partial`: threads may append and read entries that have been appended, as they like. Missing: `write_at`, `compact` and
`apply_pack` while other threads read; reading of entries while they are appended; `term_at` and `log_entries` with a cache of limited size
(see the theorems below); `pack`. -/
theorem gentle_calls_in_turn_partial {s : Store} {l : Log} (h : Reach s l) {tr : List Label} {y : Sys}
    (he : Sys.Exec gentleCalls (Sys.quiet s) tr y) : Explained byLog l tr := by
  have : ∃ z, Atomic.Exec byLog ⟨l, fun _ => .idle⟩ tr z ∧ SimGentle y z := by
    induction he with
    | nil => exact ⟨_, .nil, fun _ => rfl, h.rep.phase⟩
    | @step y1 y2 tr a _ hs hp ih =>
      obtain ⟨z, h1, h2⟩ := ih
      obtain ⟨z', h3, h4⟩ := h2.step hs hp
      refine ⟨z', ?_, h4⟩
      rcases h3 with h3 | ⟨rfl, rfl⟩
      · exact h1.step h3
      · simpa using h1
  obtain ⟨z, h1, _⟩ := this
  exact ⟨z, h1⟩

/-! ## Where it is violated -/

deriving instance DecidableEq for Op
deriving instance DecidableEq for Label

/-- What comes next in a schedule. -/
inductive Move where
  | call (t : Nat) (op : Op)
  | run (t : Nat)
  | ret (t : Nat)

instance (pc : Pc) : Decidable pc.busy := by cases pc <;> unfold Pc.busy <;> infer_instance

instance (s : Store) (op : Op) : Decidable (op.Gentle s) := by cases op <;> unfold Op.Gentle <;> infer_instance

/-- Make a move; what is seen. -/
def Sys.move (y : Sys) : Move → Option (Option Label × Sys)
  | .call t op => match y.thr t, op with
    | .idle, .reopen _ => none
    | .idle, op => some (some (.call t op), { y with thr := setThr y.thr t (.ready op) })
    | _, _ => none
  | .run t => if (y.thr t).busy ∧ ((y.thr t).lock = .takes → y.owner = none) then
      some (none, ⟨((y.thr t).next y.store).2, ownerAfter y.owner t (y.thr t) ((y.thr t).next y.store).1,
        setThr y.thr t ((y.thr t).next y.store).1⟩) else none
  | .ret t => match y.thr t with
    | .done r => some (some (.ret t r), { y with thr := setThr y.thr t .idle })
    | _ => none

theorem Sys.move_step {y y' : Sys} {m : Move} {a : Option Label} (h : y.move m = some (a, y')) : Sys.Step y a y' := by
  cases m with
  | call t op =>
    unfold Sys.move at h
    cases hp : y.thr t with
    | idle =>
      simp only [hp] at h
      cases op with
      | reopen b => cases h
      | _ => cases h; exact .call hp (fun b hx => by cases hx)
    | _ => simp only [hp] at h; cases h
  | run t =>
    by_cases hc : (y.thr t).busy ∧ ((y.thr t).lock = .takes → y.owner = none)
    · have h' : y.move (.run t) = some _ := if_pos hc
      rw [h'] at h
      cases h
      exact .run hc.1 hc.2
    · have h' : y.move (.run t) = none := if_neg hc
      rw [h'] at h
      cases h
  | ret t =>
    unfold Sys.move at h
    cases hp : y.thr t with
    | done r => simp only [hp] at h; cases h; exact .ret hp
    | _ => simp only [hp] at h; cases h

/-- Follow a schedule; `ok` restricts the steps. -/
def Sys.play (ok : Option Label → Store → Store → Bool) (y : Sys) : List Move → Option (List Label × Sys)
  | [] => some ([], y)
  | m :: ms => match y.move m with
    | some (a, y') => if ok a y.store y'.store then (Sys.play ok y' ms).map fun x => (a.toList ++ x.1, x.2) else none
    | none => none

theorem Sys.play_exec {P : Option Label → Store → Store → Prop} {ok : Option Label → Store → Store → Bool} (hok : ∀ a s s', ok a s s' = true → P a s s')
    {y0 : Sys} (ms : List Move) : ∀ {y y' : Sys} {tr tr' : List Label}, Sys.Exec P y0 tr y → y.play ok ms = some (tr', y') →
      Sys.Exec P y0 (tr ++ tr') y' := by
  induction ms with
  | nil => intro y y' tr tr' h hp; cases hp; rw [List.append_nil]; exact h
  | cons m ms ih =>
    intro y y' tr tr' h hp
    unfold Sys.play at hp
    cases hm : y.move m with
    | none => rw [hm] at hp; cases hp
    | some x =>
      obtain ⟨a, y1⟩ := x
      rw [hm] at hp
      simp only [] at hp
      split at hp
      · rename_i hc
        cases hq : Sys.play ok y1 ms with
        | none => rw [hq] at hp; cases hp
        | some x =>
          rw [hq] at hp
          cases hp
          have := ih (h.step (Sys.move_step hm) (hok _ _ _ hc)) hq
          rwa [List.append_assoc] at this
      · cases hp

/-- Append to a store. -/
def pushed (x : Except Fault Store) (e : Ent) : Except Fault Store := match x with
  | .ok s => match append e s with
    | (.ok _, s') => .ok s'
    | (.error f, _) => .error f
  | .error f => .error f

/-- A new store to which entries have been appended. -/
def built (b : Int) (es : List Ent) : Except Fault Store := es.foldl pushed (openOn Disk.none b)

theorem foldl_pushed_error (es : List Ent) (f : Fault) : es.foldl pushed (.error f) = .error f := by
  induction es with
  | nil => rfl
  | cons e es ih => exact ih

theorem Fits.left {st : Nat} {A B : List Ent} (h : Log.Fits ⟨st, A ++ B⟩) : Log.Fits ⟨st, A⟩ := by
  obtain ⟨h1, h2, h3⟩ := h
  simp only [dataSize_append, Log.next, List.length_append] at h1 h2
  exact ⟨by show dataSize A < _; omega, by show st + A.length < _; omega, h3⟩

theorem built_reach {b : Int} (hb : b ≠ 0) {es : List Ent} {s : Store} (hf : Log.Fits ⟨1, es⟩) (h : built b es = .ok s) : Reach s ⟨1, es⟩ := by
  have key : ∀ es A s, Reach s ⟨1, A⟩ → Log.Fits ⟨1, A ++ es⟩ → ∀ s', es.foldl pushed (.ok s) = .ok s' → Reach s' ⟨1, A ++ es⟩ := by
    intro es
    induction es with
    | nil => intro A s hr _ s' h; cases h; rw [List.append_nil]; exact hr
    | cons e es ih =>
      intro A s hr hf s' h
      have hf1 : Log.Fits ⟨1, A ++ [e]⟩ := Fits.left (B := es) (by simpa using hf)
      obtain ⟨r, s1, l1, h1, h2, h3⟩ := C14_step_partial hr (.append e) hf1
      have hl : l1 = ⟨1, A ++ [e]⟩ := h2.2
      subst hl
      have hp : pushed (.ok s) e = .ok s1 := by
        unfold pushed
        have h1 : wrap .nat (append e) s = (.ok r, s1) := h1
        unfold wrap at h1
        cases ha : append e s with
        | mk x s2 =>
          rw [ha] at h1
          cases x with
          | ok n => cases h1; simp only [ha]
          | error f => cases h1
      rw [List.foldl_cons, hp] at h
      have := ih (A ++ [e]) s1 h3 (by simpa using hf) s' h
      simpa using this
  unfold built at h
  cases ho : openOn Disk.none b with
  | error f => rw [ho, foldl_pushed_error] at h; cases h
  | ok s0 =>
    rw [ho] at h
    exact key es [] s0 (.new hb ho) hf s h

/-- What is seen when a schedule is followed on a store with the given entries. -/
def seen (ok : Option Label → Store → Store → Bool) (b : Int) (es : List Ent) (ms : List Move) : Option (List Label) := match built b es with
  | .ok s => ((Sys.quiet s).play ok ms).map Prod.fst
  | .error _ => none

theorem seen_exec {P : Option Label → Store → Store → Prop} {ok : Option Label → Store → Store → Bool} (hok : ∀ a s s', ok a s s' = true → P a s s')
    {b : Int} (hb : b ≠ 0) {es : List Ent} (hf : Log.Fits ⟨1, es⟩) {ms : List Move} {tr : List Label} (h : seen ok b es ms = some tr) :
    ∃ s y, Reach s ⟨1, es⟩ ∧ Sys.Exec P (Sys.quiet s) tr y := by
  unfold seen at h
  cases hs : built b es with
  | error f => rw [hs] at h; cases h
  | ok s =>
    rw [hs] at h
    simp only [] at h
    cases hp : (Sys.quiet s).play ok ms with
    | none => rw [hp] at h; cases h
    | some x =>
      rw [hp] at h
      cases h
      exact ⟨s, x.2, built_reach hb hf hs, by simpa using Sys.play_exec hok ms .nil hp⟩

/-- Answers that can be explained come from a log that the calls can have led to. -/
theorem explained_answer {S : Log → Prop} {C : Op → Prop} {l0 : Log} (h0 : S l0) (hS : ∀ l op x l', S l → C op → Ideal l op x l' → S l')
    {tr : List Label} (hC : ∀ t op, .call t op ∈ tr → C op) (h : Explained byLog l0 tr) {t : Nat} {r : Except Fault Res} (hr : .ret t r ∈ tr) :
    ∃ l op x l', S l ∧ C op ∧ r = .ok x ∧ Ideal l op x l' := by
  obtain ⟨z, h⟩ := h
  have key : S z.st ∧ (∀ t op, z.thr t = .pending op → C op) ∧
      (∀ t r, z.thr t = .done r → ∃ l op x l', S l ∧ C op ∧ r = .ok x ∧ Ideal l op x l') ∧
      (∀ t r, .ret t r ∈ tr → ∃ l op x l', S l ∧ C op ∧ r = .ok x ∧ Ideal l op x l') := by
    clear hr
    induction h with
    | nil => exact ⟨h0, fun _ _ hx => (by cases hx), fun _ _ hx => (by cases hx), fun _ _ hx => (by cases hx)⟩
    | @step z1 z2 tr a _ hs ih =>
      obtain ⟨i1, i2, i3, i4⟩ := ih fun t op hx => hC t op (List.mem_append_left _ hx)
      cases hs with
      | @call t op hi =>
        refine ⟨i1, ?_, ?_, ?_⟩
        · intro u op' hu
          by_cases hut : u = t
          · subst hut
            have hu : setThr z1.thr u (Job.pending op) u = _ := hu
            rw [setThr_same] at hu
            cases hu
            exact hC u op (List.mem_append_right _ (List.mem_singleton.mpr rfl))
          · exact i2 u op' (by rw [← hu]; exact (setThr_ne _ _ hut).symm)
        · intro u r hu
          by_cases hut : u = t
          · subst hut
            have hu : setThr z1.thr u (Job.pending op) u = _ := hu
            rw [setThr_same] at hu
            cases hu
          · exact i3 u r (by rw [← hu]; exact (setThr_ne _ _ hut).symm)
        · intro u r hu
          rcases List.mem_append.mp hu with hu | hu
          · exact i4 u r hu
          · cases List.mem_singleton.mp hu
      | @effect t op r st hi he =>
        obtain ⟨x, hx, hid⟩ := he
        refine ⟨hS _ _ _ _ i1 (i2 _ _ hi) hid, ?_, ?_, ?_⟩
        · intro u op' hu
          by_cases hut : u = t
          · subst hut
            have hu : setThr z1.thr u (Job.done r) u = _ := hu
            rw [setThr_same] at hu
            cases hu
          · exact i2 u op' (by rw [← hu]; exact (setThr_ne _ _ hut).symm)
        · intro u r' hu
          by_cases hut : u = t
          · subst hut
            have hu : setThr z1.thr u (Job.done r) u = _ := hu
            rw [setThr_same] at hu
            cases hu
            exact ⟨z1.st, op, x, st, i1, i2 _ _ hi, hx, hid⟩
          · exact i3 u r' (by rw [← hu]; exact (setThr_ne _ _ hut).symm)
        · intro u r hu
          exact i4 u r (by simpa using hu)
      | @ret t r hi =>
        refine ⟨i1, ?_, ?_, ?_⟩
        · intro u op' hu
          by_cases hut : u = t
          · subst hut
            have hu : setThr z1.thr u Job.idle u = _ := hu
            rw [setThr_same] at hu
            cases hu
          · exact i2 u op' (by rw [← hu]; exact (setThr_ne _ _ hut).symm)
        · intro u r' hu
          by_cases hut : u = t
          · subst hut
            have hu : setThr z1.thr u Job.idle u = _ := hu
            rw [setThr_same] at hu
            cases hu
          · exact i3 u r' (by rw [← hu]; exact (setThr_ne _ _ hut).symm)
        · intro u r' hu
          rcases List.mem_append.mp hu with hu | hu
          · exact i4 u r' hu
          · cases List.mem_singleton.mp hu
            exact i3 _ _ hi
  exact key.2.2.2 t r hr

/-- No call of the ideal log ends by an exception. -/
theorem not_explained_error {l : Log} {tr : List Label} {t : Nat} {f : Fault} (h : .ret t (.error f) ∈ tr) : ¬ Explained byLog l tr := by
  intro hx
  obtain ⟨_, _, _, _, _, _, hr, _⟩ := explained_answer (S := fun _ => True) (C := fun _ => True) trivial (fun _ _ _ _ _ _ _ => trivial)
    (fun _ _ _ => trivial) hx h
  cases hr

/-- C112 is false: while a thread compacts the log, another one asks for the last entry. It does not find it in the cache, which has just been
emptied, and reads behind the end of the index file. The call ends by an exception, and from then on no entry can be appended. -/
theorem entry_lost_by_compact : ∃ s tr y, Reach s ⟨1, [e3, e3, e1]⟩ ∧ Sys.Exec anyStep (Sys.quiet s) tr y ∧
    tr = [.call 1 (.entryAt 3), .call 2 (.compact 1), .ret 2 (.ok (.bool true)), .ret 1 (.error .thrown),
      .call 1 (.append e1), .ret 1 (.error .thrown)] ∧ ¬ Explained byLog ⟨1, [e3, e3, e1]⟩ tr := by
  have h : seen (fun _ _ _ => true) (-1) [e3, e3, e1] [.call 1 (.entryAt 3), .call 2 (.compact 1), .run 2, .run 2, .run 1, .run 2, .ret 2, .run 1,
      .ret 1, .call 1 (.append e1), .run 1, .ret 1] = some [.call 1 (.entryAt 3), .call 2 (.compact 1), .ret 2 (.ok (.bool true)),
        .ret 1 (.error .thrown), .call 1 (.append e1), .ret 1 (.error .thrown)] := by decide +kernel
  obtain ⟨s, y, h1, h2⟩ := seen_exec (P := anyStep) (fun _ _ _ _ => trivial) (by decide) ⟨by decide, by decide, by decide⟩ h
  exact ⟨s, _, y, h1, h2, rfl, not_explained_error (t := 1) (f := .thrown) (by simp)⟩

/-- C112 is false: while a thread compacts the log, another one that reads a range of entries reads outside of the vector of the cache. -/
theorem range_read_outside : ∃ s tr y, Reach s ⟨1, [e3, e3, e1]⟩ ∧ Sys.Exec anyStep (Sys.quiet s) tr y ∧
    tr = [.call 1 (.logEntries 2 4), .call 2 (.compact 1), .ret 1 (.error .ub)] ∧ ¬ Explained byLog ⟨1, [e3, e3, e1]⟩ tr := by
  have h : seen (fun _ _ _ => true) (-1) [e3, e3, e1] [.call 1 (.logEntries 2 4), .run 1, .call 2 (.compact 1), .run 2, .run 2, .run 1, .ret 1] =
      some [.call 1 (.logEntries 2 4), .call 2 (.compact 1), .ret 1 (.error .ub)] := by decide +kernel
  obtain ⟨s, y, h1, h2⟩ := seen_exec (P := anyStep) (fun _ _ _ _ => trivial) (by decide) ⟨by decide, by decide, by decide⟩ h
  exact ⟨s, _, y, h1, h2, rfl, not_explained_error (t := 1) (f := .ub) (by simp)⟩

/-- C112 is false although threads only append and read: a thread asks for the entry that another one is appending. It is not in the cache
yet, and then it is taken to be in the files but not the last. The call ends by an exception, and no entry can be appended any more. -/
theorem entry_lost_by_append : ∃ s tr y, Reach s ⟨1, [e3]⟩ ∧ Sys.Exec anyStep (Sys.quiet s) tr y ∧
    tr = [.call 1 (.entryAt 2), .call 2 (.append e1), .ret 2 (.ok (.nat 2)), .ret 1 (.error .thrown),
      .call 1 (.append e1), .ret 1 (.error .thrown)] ∧ ¬ Explained byLog ⟨1, [e3]⟩ tr := by
  have h : seen (fun _ _ _ => true) (-1) [e3] [.call 1 (.entryAt 2), .run 1, .call 2 (.append e1), .run 2, .run 2, .run 2, .ret 2, .run 1, .ret 1,
      .call 1 (.append e1), .run 1, .ret 1] = some [.call 1 (.entryAt 2), .call 2 (.append e1), .ret 2 (.ok (.nat 2)), .ret 1 (.error .thrown),
        .call 1 (.append e1), .ret 1 (.error .thrown)] := by decide +kernel
  obtain ⟨s, y, h1, h2⟩ := seen_exec (P := anyStep) (fun _ _ _ _ => trivial) (by decide) ⟨by decide, by decide, by decide⟩ h
  exact ⟨s, _, y, h1, h2, rfl, not_explained_error (t := 1) (f := .thrown) (by simp)⟩

/-- C112 is false: while the only entry is replaced, another thread is told that the log is empty. -/
theorem last_entry_missing : ∃ s tr y, Reach s ⟨1, [e1]⟩ ∧ Sys.Exec anyStep (Sys.quiet s) tr y ∧
    tr = [.call 1 (.writeAt 1 e3), .call 2 .lastEntry, .ret 2 (.ok (.ent (some ⟨0, 1, []⟩))), .ret 1 (.ok .done)] ∧
    ¬ Explained byLog ⟨1, [e1]⟩ tr := by
  have h : seen (fun _ _ _ => true) (-1) [e1] [.call 1 (.writeAt 1 e3), .run 1, .run 1, .call 2 .lastEntry, .run 2, .ret 2, .run 1, .run 1, .ret 1] =
      some [.call 1 (.writeAt 1 e3), .call 2 .lastEntry, .ret 2 (.ok (.ent (some ⟨0, 1, []⟩))), .ret 1 (.ok .done)] := by decide +kernel
  obtain ⟨s, y, h1, h2⟩ := seen_exec (P := anyStep) (fun _ _ _ _ => trivial) (by decide) ⟨by decide, by decide, by decide⟩ h
  refine ⟨s, _, y, h1, h2, rfl, fun hx => ?_⟩
  obtain ⟨l, op, x, l', hl, hop, hr, hid⟩ := explained_answer (S := fun l => l = ⟨1, [e1]⟩ ∨ l = ⟨1, [e3]⟩)
    (C := fun op => op = .writeAt 1 e3 ∨ op = .lastEntry) (.inl rfl)
    (by
      rintro l op x l' hl (rfl | rfl) hid
      · rw [hid.2]; rcases hl with rfl | rfl <;> exact .inr rfl
      · rw [hid.2]; exact hl)
    (by intro t op hm; simp at hm; rcases hm with ⟨_, rfl⟩ | ⟨_, rfl⟩; exact .inl rfl; exact .inr rfl)
    hx (t := 2) (r := .ok (.ent (some ⟨0, 1, []⟩))) (by simp)
  cases hr
  rcases hop with rfl | rfl
  · cases hid.1
  · rcases hl with rfl | rfl <;> exact absurd hid.1 (by decide)

/-- C112 is false for caches of limited size although threads only append and read: a thread is told the term 0 for an entry that another
thread pushes out of the cache. -/
theorem term_lost_by_append : ∃ s tr y, Reach s ⟨1, [e3]⟩ ∧ Sys.Exec anyStep (Sys.quiet s) tr y ∧
    tr = [.call 1 (.termAt 1), .call 2 (.append e1), .ret 2 (.ok (.nat 2)), .ret 1 (.ok (.term 0))] ∧ ¬ Explained byLog ⟨1, [e3]⟩ tr := by
  have h : seen (fun _ _ _ => true) 1 [e3] [.call 1 (.termAt 1), .run 1, .run 1, .call 2 (.append e1), .run 2, .run 2, .run 2, .ret 2, .run 1, .ret 1] =
      some [.call 1 (.termAt 1), .call 2 (.append e1), .ret 2 (.ok (.nat 2)), .ret 1 (.ok (.term 0))] := by decide +kernel
  obtain ⟨s, y, h1, h2⟩ := seen_exec (P := anyStep) (fun _ _ _ _ => trivial) (by decide) ⟨by decide, by decide, by decide⟩ h
  refine ⟨s, _, y, h1, h2, rfl, fun hx => ?_⟩
  obtain ⟨l, op, x, l', hl, hop, hr, hid⟩ := explained_answer (S := fun l => l.start = 1 ∧ l.ents.head? = some e3)
    (C := fun op => op = .termAt 1 ∨ op = .append e1) ⟨rfl, rfl⟩
    (by
      rintro l op x l' hl (rfl | rfl) hid
      · rw [hid.2]; exact hl
      · rw [hid.2]; exact ⟨hl.1, by rw [List.head?_append, hl.2]; rfl⟩)
    (by intro t op hm; simp at hm; rcases hm with ⟨_, rfl⟩ | ⟨_, rfl⟩; exact .inl rfl; exact .inr rfl)
    hx (t := 1) (r := .ok (.term 0)) (by simp)
  cases hr
  rcases hop with rfl | rfl
  · obtain ⟨⟨e, he, ht⟩, -⟩ := hid
    rw [get?_eq (by rw [hl.1]; exact Nat.le_refl _), hl.1, Nat.sub_self, ← List.head?_eq_getElem?, hl.2] at he
    cases he
    cases ht
  · cases hid.1

/-- `gentleCalls`, as a test. -/
def isGentle (a : Option Label) (s s' : Store) : Bool :=
  (match a with
    | some (.call _ op) => decide (op.Gentle s)
    | _ => true) && decide (s'.dat.bytes.length < 2 ^ 31 ∧ s'.start + s'.count + 1 < 2 ^ 62)

/-- `wholeCalls`, as a test. -/
def isWhole (a : Option Label) (_ _ : Store) : Bool := match a with
  | some (.call _ .lastEntry) => false
  | some (.call _ (.entryAt _)) => false
  | some (.call _ (.termAt _)) => false
  | some (.call _ (.logEntries _ _)) => false
  | some (.call _ (.reopen _)) => false
  | _ => true

/-- Threads that append and read at the same time. -/
example : ∃ s tr y, Reach s ⟨1, [e3, e3]⟩ ∧ Sys.Exec gentleCalls (Sys.quiet s) tr y ∧
    tr = [.call 1 (.append e1), .call 2 (.logEntries 1 9), .call 3 .lastEntry, .ret 3 (.ok (.ent (some e1))), .ret 1 (.ok (.nat 3)),
      .ret 2 (.ok (.ents (some [some e3, some e3, some e1])))] := by
  have h : seen isGentle (-1) [e3, e3] [.call 1 (.append e1), .call 2 (.logEntries 1 9), .call 3 .lastEntry, .run 1, .run 1, .run 3,
        .ret 3, .run 1, .run 2, .ret 1, .run 2, .ret 2] = some [.call 1 (.append e1), .call 2 (.logEntries 1 9), .call 3 .lastEntry,
          .ret 3 (.ok (.ent (some e1))), .ret 1 (.ok (.nat 3)), .ret 2 (.ok (.ents (some [some e3, some e3, some e1])))] := by decide +kernel
  obtain ⟨s, y, h1, h2⟩ := seen_exec (P := gentleCalls) (fun a s s' hx => by
    have h2 := (Bool.and_eq_true _ _ ▸ hx : _ ∧ _)
    exact ⟨fun t op ha => (by subst ha; exact of_decide_eq_true h2.1), of_decide_eq_true h2.2⟩) (by decide) ⟨by decide, by decide, by decide⟩ h
  exact ⟨s, _, y, h1, h2, rfl⟩

/-- Threads that change the store at the same time. -/
example : ∃ s tr y, Reach s ⟨1, [e3, e3]⟩ ∧ Sys.Exec wholeCalls (Sys.quiet s) tr y ∧
    tr = [.call 1 (.compact 1), .call 2 (.append e1), .ret 1 (.ok (.bool true)), .ret 2 (.ok (.nat 3))] := by
  have h : seen isWhole (-1) [e3, e3]
      [.call 1 (.compact 1), .call 2 (.append e1), .run 1, .run 1, .run 1, .run 2, .ret 1, .run 2, .run 2, .ret 2] =
        some [.call 1 (.compact 1), .call 2 (.append e1), .ret 1 (.ok (.bool true)), .ret 2 (.ok (.nat 3))] := by decide +kernel
  obtain ⟨s, y, h1, h2⟩ := seen_exec (P := wholeCalls) (fun a s s' hx t op ha => by
    subst ha
    cases op <;> first | exact True.intro | exact absurd (show false = true from hx) Bool.false_ne_true) (by decide) ⟨by decide, by decide, by decide⟩ h
  exact ⟨s, _, y, h1, h2, rfl⟩

end Cs.LogStore
