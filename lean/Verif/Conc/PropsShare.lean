import Verif.Conc.Share
import Verif.Codec.Props

/-!
# C85: the state machine is given commands from their first byte, and they are sent as they are

A command is handed to the state machine, and copied into requests, from the position of its buffer on. These theorems say when that is
the whole command: never mind what happens in between, as long as the state machine rewinds the buffer itself and is not using the
buffer at the moment the entry is sent; and they show that otherwise the commands that members commit differ.
-/

namespace Cs.Share
open Cs Cs.Buffer Cs.Codec Cs.Rpc

/-! ## Specification -/

/-- What a program of looks yields on a buffer nobody else uses. -/
def readsOn : Buf → List Look → List (Except Fault Seen)
  | _, [] => []
  | b, l :: ls => (l.call b).1 :: readsOn (l.call b).2 ls

/-- What a program of looks yields on a buffer that holds the command and nothing else. -/
def readsOf (command : List Byte) (ls : List Look) : List (Except Fault Seen) := readsOn (fresh command) ls

/-- The state machine uses the buffer in this step. -/
def Act.isUse : Act → Bool
  | .use _ _ => true
  | _ => false

/-- What the state machine does in the calls made by thread `t`. -/
def looks (t : Nat) : List Act → List Look
  | [] => []
  | .use t' l :: as => if t' = t then l :: looks t as else looks t as
  | _ :: as => looks t as

/-- Steps that leave the call of the state machine made by thread `t` alone: nobody rewinds the buffer in order to send it, no other
call of the state machine uses it, and the call goes on. -/
def Undisturbed (t : Nat) (as : List Act) : Prop :=
  ∀ a ∈ as, (∀ u, a ≠ .rewind u) ∧ (∀ t' l, a = .use t' l → t' = t) ∧ a ≠ .enter t ∧ a ≠ .leave t

/-! ## The invariant -/

/-- Every object holds the command. -/
structure Good (d : List Byte) (w : World) : Prop where
  small : d.length < 2 ^ 31
  file : w.file = d
  objs : ∀ b ∈ w.objs, ∃ p, At b d p
  kept : ∀ h, w.kept = some h → h < w.objs.length
  using_ : ∀ t h, w.using_ t = some h → h < w.objs.length
  sending : ∀ t h, w.sending t = some h → h < w.objs.length

theorem fresh_at {d : List Byte} (h : d.length < 2 ^ 31) : At (fresh d) d 0 := by
  obtain ⟨b, h1, h2, h3⟩ := alloc_hdr 0 h
  rw [fresh, h1]
  exact ⟨h2.withData rfl, rfl⟩

theorem At.ext {b b' : Buf} {d p} (h : At b d p) (h' : At b' d p) : b = b' :=
  HdrAt.ext h.hdr h'.hdr (by rw [h.data, h'.data])

theorem seek0_at {b d p} (h : At b d p) : At (seek 0 b).2 d 0 := by
  rw [seek_run h 0]
  simpa using seek_at h 0

theorem look_at {b d p} (h : At b d p) (l : Look) : ∃ p', At (l.call b).2 d p' := by
  cases l with
  | byte =>
    rw [Look.call]
    by_cases hl : p + 1 ≤ d.length
    · rw [run_bind_ok (getByte_ok h hl)]; exact ⟨_, h.mvFw hl⟩
    · rw [run_bind_err (getByte_short h hl)]; exact ⟨_, h⟩
  | int =>
    rw [Look.call]
    by_cases hl : p + 4 ≤ d.length
    · rw [run_bind_ok (getInt_ok h hl)]; exact ⟨_, h.mvFw hl⟩
    · rw [run_bind_err (getInt_short h hl)]; exact ⟨_, h⟩
  | ulong =>
    rw [Look.call]
    by_cases hl : p + 8 ≤ d.length
    · rw [run_bind_ok (getULong_ok h hl)]; exact ⟨_, h.mvFw hl⟩
    · rw [run_bind_err (getULong_short h hl)]; exact ⟨_, h⟩
  | str =>
    rw [Look.call]
    have hg := getStr_run h
    by_cases hc : p + nulRun (d.drop p) ≥ d.length ∨ nulRun (d.drop p) = 0
    · rw [if_pos hc] at hg
      rw [run_bind_ok hg]; exact ⟨_, h⟩
    · rw [if_neg hc] at hg
      rw [run_bind_ok hg]; exact ⟨_, h.mvFw (by omega)⟩
  | seek q =>
    rw [Look.call, run_bind_ok (seek_run h q)]
    exact ⟨_, seek_at h q⟩

theorem Good.stored {b : Buf} (h : Reach b) : Good b.data (World.stored b) := by
  obtain ⟨d, p, ha⟩ := h.at
  refine ⟨by rw [ha.data]; exact ha.hdr.hn, rfl, ?_, ?_, fun _ _ h => (by cases h), fun _ _ h => (by cases h)⟩
  · intro b' hb
    rw [World.stored, List.mem_singleton] at hb
    subst hb
    rw [ha.data]
    exact ⟨0, seek0_at ha⟩
  · intro h0 hh
    cases hh
    exact Nat.zero_lt_one

theorem Good.get {d w} (h : Good d w) : Good d w.get.2 ∧ w.get.1 < w.get.2.objs.length ∧
    w.objs.length ≤ w.get.2.objs.length := by
  unfold World.get
  cases hk : w.kept with
  | some k => exact ⟨h, h.kept k hk, Nat.le_refl _⟩
  | none =>
    refine ⟨⟨h.small, h.file, ?_, fun _ h0 => ?_, fun t i hi => ?_, fun t i hi => ?_⟩, ?_, ?_⟩
    · intro b hb
      rcases List.mem_append.1 hb with hb | hb
      · exact h.objs b hb
      · rw [List.mem_singleton] at hb
        subst hb
        rw [h.file]
        exact ⟨0, fresh_at h.small⟩
    · cases h0
    · have := h.using_ t i hi
      simp only [List.length_append, List.length_cons, List.length_nil]; omega
    · have := h.sending t i hi
      simp only [List.length_append, List.length_cons, List.length_nil]; omega
    · simp
    · simp

theorem Good.buf {d w} (h : Good d w) {i : Nat} (hi : i < w.objs.length) : ∃ p, At (w.buf i) d p := by
  rw [World.buf, List.getD_eq_getElem?_getD, List.getElem?_eq_getElem hi]
  exact h.objs _ (List.getElem_mem hi)

theorem Good.put {d w} (h : Good d w) {b : Buf} {p i : Nat} (hb : At b d p) : Good d (w.put i b) := by
  refine ⟨h.small, h.file, fun b' hb' => ?_, fun k hk => ?_, fun t k hk => ?_, fun t k hk => ?_⟩
  · rcases List.mem_or_eq_of_mem_set hb' with h1 | h1
    · exact h.objs b' h1
    · subst h1; exact ⟨p, hb⟩
  · rw [World.put, List.length_set]; exact h.kept k hk
  · rw [World.put, List.length_set]; exact h.using_ t k hk
  · rw [World.put, List.length_set]; exact h.sending t k hk

theorem upd_same {α : Type} (f : Nat → α) (t : Nat) (v : α) : upd f t v t = v := by rw [upd, if_pos rfl]

theorem upd_other {α : Type} (f : Nat → α) {t i : Nat} (v : α) (h : i ≠ t) : upd f t v i = f i := by rw [upd, if_neg h]

theorem upd_lt {f : Nat → Option Nat} {n m t k : Nat} {v : Option Nat} (h : ∀ t h, f t = some h → h < n) (hn : n ≤ m)
    (hv : ∀ x, v = some x → x < m) (i : Nat) (hi : upd f t v i = some k) : k < m := by
  by_cases hc : i = t
  · subst hc; rw [upd_same] at hi; exact hv k hi
  · rw [upd_other f v hc] at hi; exact Nat.lt_of_lt_of_le (h i k hi) hn

theorem Good.step {d w} (c : Ctx) (h : Good d w) (a : Act) : Good d (w.step c a) := by
  cases a with
  | drop => exact ⟨h.small, h.file, h.objs, fun _ h0 => (by cases h0), h.using_, h.sending⟩
  | enter t =>
    obtain ⟨h1, h2, h3⟩ := h.get
    exact ⟨h1.small, h1.file, h1.objs, h1.kept,
      fun i k hk => upd_lt (v := some w.get.1) h.using_ h3 (fun x hx => (by cases hx; exact h2)) i hk, h1.sending⟩
  | use t l =>
    rw [World.step]
    cases hu : w.using_ t with
    | none => exact h
    | some i =>
      obtain ⟨p, hp⟩ := h.buf (h.using_ t i hu)
      obtain ⟨p', hp'⟩ := look_at hp l
      have := h.put (i := i) hp'
      exact ⟨this.small, this.file, this.objs, this.kept, this.using_, this.sending⟩
  | leave t =>
    exact ⟨h.small, h.file, h.objs, h.kept,
      fun i k hk => upd_lt (v := none) h.using_ (Nat.le_refl _) (fun x hx => (by cases hx)) i hk, h.sending⟩
  | take u =>
    obtain ⟨h1, h2, h3⟩ := h.get
    exact ⟨h1.small, h1.file, h1.objs, h1.kept, h1.using_,
      fun i k hk => upd_lt (v := some w.get.1) h.sending h3 (fun x hx => (by cases hx; exact h2)) i hk⟩
  | rewind u =>
    rw [World.step]
    cases hu : w.sending u with
    | none => exact h
    | some i =>
      obtain ⟨p, hp⟩ := h.buf (h.sending u i hu)
      exact h.put (i := i) (seek0_at hp)
  | copy u =>
    rw [World.step]
    cases hu : w.sending u with
    | none => exact h
    | some i =>
      exact ⟨h.small, h.file, h.objs, h.kept, h.using_,
        fun i k hk => upd_lt (v := none) h.sending (Nat.le_refl _) (fun x hx => (by cases hx)) i hk⟩

theorem Good.run {d} (c : Ctx) : ∀ (as : List Act) {w}, Good d w → Good d (w.run c as)
  | [], _, h => h
  | a :: as, _, h => Good.run c as (h.step c a)

/-! ## Objects that are left alone -/

/-- The object `i` is at position 0. -/
def Zero (d : List Byte) (w : World) (i : Nat) : Prop := i < w.objs.length ∧ At (w.buf i) d 0

theorem buf_put_same {w : World} {i : Nat} {b : Buf} (h : i < w.objs.length) : (w.put i b).buf i = b := by
  rw [World.buf, World.put, List.getD_eq_getElem?_getD]
  simp [h]

theorem buf_put_other {w : World} {i j : Nat} {b : Buf} (h : i ≠ j) : (w.put i b).buf j = w.buf j := by
  rw [World.buf, World.put, List.getD_eq_getElem?_getD]
  simp only [List.getElem?_set_ne h]
  rw [World.buf, List.getD_eq_getElem?_getD]

theorem buf_get {w : World} {i : Nat} (h : i < w.objs.length) : w.get.2.buf i = w.buf i := by
  unfold World.get
  cases w.kept with
  | some k => rfl
  | none =>
    simp only [World.buf, List.getD_eq_getElem?_getD]
    rw [List.getElem?_append_left h]

theorem step_buf_enter (c : Ctx) (w : World) (t i : Nat) (h : i < w.objs.length) : (w.step c (.enter t)).buf i = w.buf i :=
  buf_get h

theorem step_buf_take (c : Ctx) (w : World) (t i : Nat) (h : i < w.objs.length) : (w.step c (.take t)).buf i = w.buf i :=
  buf_get h

theorem step_len (c : Ctx) {d} {w : World} (hg : Good d w) (a : Act) : w.objs.length ≤ (w.step c a).objs.length := by
  cases a with
  | drop => exact Nat.le_refl _
  | enter t => exact hg.get.2.2
  | use t l =>
    rw [World.step]
    cases w.using_ t with
    | none => exact Nat.le_refl _
    | some i => exact Nat.le_of_eq (List.length_set ..).symm
  | leave t => exact Nat.le_refl _
  | take u => exact hg.get.2.2
  | rewind u =>
    rw [World.step]
    cases w.sending u with
    | none => exact Nat.le_refl _
    | some i => exact Nat.le_of_eq (List.length_set ..).symm
  | copy u =>
    rw [World.step]
    cases w.sending u with
    | none => exact Nat.le_refl _
    | some i => exact Nat.le_refl _

theorem step_zero (c : Ctx) {d} {w : World} (hg : Good d w) {i : Nat} (hz : Zero d w i) (a : Act) (ha : a.isUse = false) :
    Zero d (w.step c a) i := by
  refine ⟨Nat.lt_of_lt_of_le hz.1 (step_len c hg a), ?_⟩
  cases a with
  | drop => exact hz.2
  | enter t => rw [step_buf_enter c w t i hz.1]; exact hz.2
  | use t l => cases ha
  | leave t => exact hz.2
  | take u => rw [step_buf_take c w u i hz.1]; exact hz.2
  | rewind u =>
    rw [World.step]
    cases hu : w.sending u with
    | none => exact hz.2
    | some j =>
      by_cases hc : j = i
      · subst hc
        show At ((w.put j _).buf j) d 0
        rw [buf_put_same hz.1]
        exact seek0_at hz.2
      · show At ((w.put j _).buf i) d 0
        rw [buf_put_other hc]
        exact hz.2
  | copy u =>
    rw [World.step]
    cases hu : w.sending u with
    | none => exact hz.2
    | some j => exact hz.2

theorem run_zero (c : Ctx) {d} {i : Nat} : ∀ (as : List Act) {w : World}, Good d w → Zero d w i → (∀ a ∈ as, a.isUse = false) →
    Zero d (w.run c as) i
  | [], _, _, hz, _ => hz
  | a :: as, _, hg, hz, h =>
    run_zero c as (hg.step c a) (step_zero c hg hz a (h a (List.mem_cons_self ..))) fun b hb => h b (List.mem_cons_of_mem _ hb)

/-! ## Sending -/

theorem copyEntry_at (junk : Byte) (t : U64) (v : Byte) {b d p} (h : At b d p) (hs : 13 + d.length < 2 ^ 31) :
    ∃ b' rest, copyEntry junk t v b = .ok b' ∧ rest.length = p ∧
      b'.data = le8 t ++ (v :: (le4 (BitVec.ofNat 32 d.length) ++ (d.drop p ++ rest))) := by
  have hp := h.le
  have hr : Rd b (d.take p) (d.drop p) := by
    rw [Rd, List.take_append_drop, List.length_take, Nat.min_eq_left hp]; exact h
  have hlen : (d.drop p).length = d.length - p := List.length_drop
  obtain ⟨c0, g0, w0⟩ := Wr.alloc junk (n := 8 + 1 + 4 + d.length) (by omega)
  obtain ⟨c1, g1, w1⟩ := w0.putULong t (by omega)
  obtain ⟨c2, g2, w2⟩ := w1.putByte v (by omega)
  obtain ⟨c3, g3, w3⟩ := w2.putInt (BitVec.ofNat 32 d.length) (by omega)
  obtain ⟨c4, g4, w4⟩ := w3.putBuf hr (by omega)
  obtain ⟨rest, hrest, ha⟩ := w4
  have hrun := seek_run ha 0
  have hat := (seek_at ha 0).data
  refine ⟨_, rest, ?_, by omega, Eq.trans hat (by simp)⟩
  rw [copyEntry, h.size, g0, ok_bind, finish_ok]
  rw [run_bind_ok g1, run_bind_ok g2, run_bind_ok g3, run_bind_ok g4, hrun]

theorem step_sending (c : Ctx) (w : World) {u : Nat} (a : Act) (h1 : a ≠ .take u) (h2 : a ≠ .copy u) :
    (w.step c a).sending u = w.sending u := by
  have hget : w.get.2.sending = w.sending := by
    unfold World.get
    cases w.kept <;> rfl
  cases a with
  | drop => rfl
  | enter t => show w.get.2.sending u = _; rw [hget]
  | use t l => rw [World.step]; cases w.using_ t <;> rfl
  | leave t => rfl
  | take u' =>
    have : u ≠ u' := fun h => h1 (by rw [h])
    exact upd_other _ _ this
  | rewind u' => rw [World.step]; cases w.sending u' <;> rfl
  | copy u' =>
    have : u ≠ u' := fun h => h2 (by rw [h])
    rw [World.step]
    cases w.sending u' with
    | none => rfl
    | some j => exact upd_other _ _ this

theorem run_sending (c : Ctx) {u : Nat} : ∀ (as : List Act) (w : World), (∀ a ∈ as, a ≠ .take u ∧ a ≠ .copy u) →
    (w.run c as).sending u = w.sending u
  | [], _, _ => rfl
  | a :: as, w, h => by
    rw [run_cons, run_sending c as _ fun b hb => h b (List.mem_cons_of_mem _ hb),
      step_sending c w a (h a (List.mem_cons_self ..)).1 (h a (List.mem_cons_self ..)).2]

/-- C85 (what holds, sending): whatever happened before, if no call of the state machine uses the buffer between the moment a thread
rewinds it in order to send the entry and the moment it copies it, the bytes in the request are those of the command. Missing: nothing
prevents such calls. -/
theorem sent_whole_partial (c : Ctx) (b : Buf) (hb : Reach b) (hs : 13 + b.data.length < 2 ^ 31) (pre mid : List Act) (u : Nat)
    (ht : ((World.stored b).run c pre).sending u ≠ none)
    (hm : ∀ a ∈ mid, a.isUse = false ∧ a ≠ .take u ∧ a ≠ .copy u) :
    ((World.stored b).run c (pre ++ .rewind u :: mid ++ [.copy u])).sent =
      ((World.stored b).run c (pre ++ .rewind u :: mid)).sent ++ [.ok (entryBytes c.term c.vtype b.data)] := by
  have hg : Good b.data ((World.stored b).run c pre) := (Good.stored hb).run c pre
  rw [run_append _ _ (pre ++ _), run_append _ _ pre, run_cons c _ (.rewind u)]
  generalize (World.stored b).run c pre = w at *
  obtain ⟨i, hi⟩ := Option.ne_none_iff_exists'.1 ht
  have hl := hg.sending u i hi
  obtain ⟨p, hp⟩ := hg.buf hl
  have hw : w.step c (.rewind u) = w.put i (seek 0 (w.buf i)).2 := by rw [World.step, hi]
  have hz : Zero b.data (w.step c (.rewind u)) i := by
    rw [hw]
    refine ⟨by rw [World.put, List.length_set]; exact hl, ?_⟩
    rw [buf_put_same hl]
    exact seek0_at hp
  have hz' := run_zero c mid (hg.step c _) hz fun a ha => (hm a ha).1
  have hs' : ((w.step c (.rewind u)).run c mid).sending u = some i := by
    rw [run_sending c mid _ fun a ha => (hm a ha).2, step_sending c w _ (by simp) (by simp), hi]
  generalize (w.step c (.rewind u)).run c mid = w' at *
  show (w'.step c (.copy u)).sent = _
  rw [World.step, hs']
  obtain ⟨b', rest, h1, h2, h3⟩ := copyEntry_at c.junk c.term c.vtype hz'.2 hs
  have : rest = [] := List.eq_nil_of_length_eq_zero h2
  subst this
  simp only [h1, Except.map, h3]
  simp [entryBytes]

/-! ## Reading -/

theorem step_using (c : Ctx) (w : World) {t : Nat} (a : Act) (h1 : a ≠ .enter t) (h2 : a ≠ .leave t) :
    (w.step c a).using_ t = w.using_ t := by
  have hget : w.get.2.using_ = w.using_ := by
    unfold World.get
    cases w.kept <;> rfl
  cases a with
  | drop => rfl
  | enter t' =>
    have : t ≠ t' := fun h => h1 (by rw [h])
    exact upd_other _ _ this
  | use t l => rw [World.step]; cases w.using_ t <;> rfl
  | leave t' =>
    have : t ≠ t' := fun h => h2 (by rw [h])
    exact upd_other _ _ this
  | take u' => show w.get.2.using_ t = _; rw [hget]
  | rewind u' => rw [World.step]; cases w.sending u' <;> rfl
  | copy u' => rw [World.step]; cases w.sending u' <;> rfl

theorem get_heard (w : World) : w.get.2.heard = w.heard := by
  unfold World.get
  cases w.kept <;> rfl

theorem reads_run (c : Ctx) {d} {t i : Nat} : ∀ (mid : List Act) {w : World}, Good d w → w.using_ t = some i → Undisturbed t mid →
    (w.run c mid).heard = w.heard ++ (readsOn (w.buf i) (looks t mid)).map fun r => (t, r)
  | [], w, _, _, _ => (List.append_nil _).symm
  | a :: mid, w, hg, hu, hm => by
    have hm' : Undisturbed t mid := fun a ha => hm a (List.mem_cons_of_mem _ ha)
    obtain ⟨n1, n2, n3, n4⟩ := hm a (List.mem_cons_self ..)
    have hl := hg.using_ t i hu
    have hu' : (w.step c a).using_ t = some i := by rw [step_using c w a n3 n4, hu]
    rw [run_cons, reads_run c mid (hg.step c a) hu' hm']
    cases a with
    | drop => rfl
    | enter t' =>
      rw [step_buf_enter c w t' i hl]
      show w.get.2.heard ++ _ = _
      rw [get_heard]; rfl
    | use t' l =>
      have : t' = t := n2 t' l rfl
      subst this
      have hw : w.step c (.use t' l) = { w.put i (l.call (w.buf i)).2 with heard := w.heard ++ [(t', (l.call (w.buf i)).1)] } := by
        rw [World.step, hu]
      rw [hw]
      have hb : (World.mk w.file (w.put i (l.call (w.buf i)).2).objs w.kept w.using_ w.sending w.given
          (w.heard ++ [(t', (l.call (w.buf i)).1)]) w.sent).buf i = (l.call (w.buf i)).2 :=
        buf_put_same (w := w) (b := (l.call (w.buf i)).2) hl
      have hk : looks t' (.use t' l :: mid) = l :: looks t' mid := by rw [looks, if_pos rfl]
      rw [hk, readsOn, List.map_cons]
      show (w.heard ++ [_]) ++ _ = _
      rw [List.append_assoc]
      exact congrArg (fun b => w.heard ++ ([(t', (l.call (w.buf i)).1)] ++ (readsOn b (looks t' mid)).map fun r => (t', r))) hb
    | leave t' => rfl
    | take u =>
      rw [step_buf_take c w u i hl]
      show w.get.2.heard ++ _ = _
      rw [get_heard]; rfl
    | rewind u => exact absurd rfl (n1 u)
    | copy u =>
      have h1 : (w.step c (.copy u)).heard = w.heard := by rw [World.step]; cases w.sending u <;> rfl
      have h2 : (w.step c (.copy u)).buf i = w.buf i := by rw [World.step]; cases w.sending u <;> rfl
      rw [h1, h2]; rfl

/-- C85 (what holds, reading): whatever happened before, a call of the state machine that begins by setting the position to 0 reads
exactly what it would read from a buffer that holds the command and that nobody else uses, as long as the entry is not sent, and no
other call made, meanwhile. Missing: the library does neither rewind the buffer nor keep the senders away. -/
theorem read_whole_partial (c : Ctx) (b : Buf) (hb : Reach b) (pre mid : List Act) (t : Nat) (hm : Undisturbed t mid) :
    ((World.stored b).run c (pre ++ .enter t :: .use t (.seek 0) :: mid)).heard =
      ((World.stored b).run c (pre ++ [.enter t, .use t (.seek 0)])).heard ++
        (readsOf b.data (looks t mid)).map fun r => (t, r) := by
  have hg : Good b.data ((World.stored b).run c pre) := (Good.stored hb).run c pre
  rw [run_append, run_append, run_cons, run_cons, run_cons, run_cons]
  generalize (World.stored b).run c pre = w at *
  have h1 := hg.step c (.enter t)
  have hu : (w.step c (.enter t)).using_ t = some w.get.1 := upd_same _ _ _
  generalize w.step c (.enter t) = w1 at *
  have hl := h1.using_ t _ hu
  obtain ⟨p, hp⟩ := h1.buf hl
  have h2 := h1.step c (.use t (.seek 0))
  have hu2 : (w1.step c (.use t (.seek 0))).using_ t = some w.get.1 := by
    rw [step_using c w1 _ (by simp) (by simp), hu]
  have hz : (w1.step c (.use t (.seek 0))).buf w.get.1 = fresh b.data := by
    rw [World.step, hu]
    show (w1.put w.get.1 _).buf w.get.1 = _
    rw [buf_put_same hl]
    refine At.ext (p := 0) ?_ (fresh_at h1.small)
    rw [Look.call, run_bind_ok (seek_run hp 0)]
    simpa using seek_at hp 0
  have := reads_run c mid h2 hu2 hm
  rw [hz] at this
  exact this

/-! ## What is given -/

theorem enter_given (c : Ctx) (w : World) (t : Nat) :
    (w.step c (.enter t)).given = w.given ++ [(t, (w.get.2.buf w.get.1).content)] := rfl

theorem get_given (w : World) : w.get.2.given = w.given := by
  unfold World.get
  cases w.kept <;> rfl

/-- C85 (what holds, an entry that is read from the file): once the log store does not keep the entry, the state machine is given the
whole command. -/
theorem given_from_file_partial (c : Ctx) (b : Buf) (hb : Reach b) (pre : List Act) (t : Nat)
    (hk : ((World.stored b).run c pre).kept = none) :
    ((World.stored b).run c (pre ++ [.enter t])).given = ((World.stored b).run c pre).given ++ [(t, b.data)] := by
  have hg : Good b.data ((World.stored b).run c pre) := (Good.stored hb).run c pre
  rw [run_append]
  generalize (World.stored b).run c pre = w at *
  show (w.step c (.enter t)).given = _
  have hget : w.get = (w.objs.length, { w with objs := w.objs ++ [fresh w.file] }) := by rw [World.get, hk]
  rw [enter_given, hget]
  simp only [World.buf, List.getD_eq_getElem?_getD, List.getElem?_append_right (Nat.le_refl _), Nat.sub_self]
  simp only [List.getElem?_cons_zero, Option.getD_some]
  rw [hg.file, content_at (fresh_at hg.small), List.drop_zero]

/-- All calls are given the whole command. -/
def AllWhole (d : List Byte) (w : World) : Prop := ∀ x ∈ w.given, x.2 = d

theorem whole_run (c : Ctx) {d} : ∀ (as : List Act) {w : World}, Good d w → (∀ h, w.kept = some h → Zero d w h) → AllWhole d w →
    (∀ a ∈ as, a.isUse = false) → AllWhole d (w.run c as)
  | [], _, _, _, hw, _ => hw
  | a :: as, w, hg, hz, hw, ha => by
    have h0 := ha a (List.mem_cons_self ..)
    refine whole_run c as (hg.step c a) ?_ ?_ fun b hb => ha b (List.mem_cons_of_mem _ hb)
    · intro h hk
      refine step_zero c hg (hz h ?_) a h0
      have hget : w.get.2.kept = w.kept := by
        unfold World.get
        cases hk : w.kept <;> simp [hk]
      cases a with
      | drop => cases hk
      | enter t => rw [← hget]; exact hk
      | use t l => cases h0
      | leave t => exact hk
      | take u => rw [← hget]; exact hk
      | rewind u => rw [World.step] at hk; cases hu : w.sending u <;> rw [hu] at hk <;> exact hk
      | copy u => rw [World.step] at hk; cases hu : w.sending u <;> rw [hu] at hk <;> exact hk
    · cases a with
      | drop => exact hw
      | enter t =>
        intro x hx
        rw [enter_given] at hx
        rcases List.mem_append.1 hx with hx | hx
        · exact hw x hx
        · rw [List.mem_singleton] at hx
          subst hx
          show (w.get.2.buf w.get.1).content = d
          unfold World.get
          cases hk : w.kept with
          | some h =>
            have := hz h hk
            rw [content_at this.2, List.drop_zero]
          | none =>
            simp only [World.buf, List.getD_eq_getElem?_getD, List.getElem?_append_right (Nat.le_refl _), Nat.sub_self]
            simp only [List.getElem?_cons_zero, Option.getD_some]
            rw [hg.file, content_at (fresh_at hg.small), List.drop_zero]
      | use t l => cases h0
      | leave t => exact hw
      | take u => intro x hx; exact hw x (by rw [← get_given w]; exact hx)
      | rewind u => rw [World.step]; cases w.sending u <;> exact hw
      | copy u => rw [World.step]; cases w.sending u <;> exact hw

/-- C85 (what holds, a state machine that leaves the position alone): if the state machine only looks at the memory behind `data()`, as
the state machines in the tests do, every call is given the whole command, whatever the threads do. Missing: the interface invites the
state machine to read with the functions of `buffer`. -/
theorem given_whole_partial (c : Ctx) (b : Buf) (hb : Reach b) (as : List Act) (h : ∀ a ∈ as, a.isUse = false) :
    ∀ x ∈ ((World.stored b).run c as).given, x.2 = b.data := by
  refine whole_run c as (Good.stored hb) ?_ (fun x hx => (by cases hx)) h
  intro i hi
  cases hi
  obtain ⟨d, p, ha⟩ := hb.at
  rw [ha.data]
  exact ⟨Nat.zero_lt_one, seek0_at ha⟩

/-! ## Where it fails -/

/-- A command of three bytes, as the client submits it. -/
def threeBytes : Buf := fresh [1, 2, 3]

/-- Memory that holds 0xEE, term 5, an application command. -/
def ctx5 : Ctx := ⟨0xEE, 5, 1⟩

theorem threeBytes_reach : Reach threeBytes := (fresh_at (d := [1, 2, 3]) (by decide)).reach

/-- The state machine reads the command when it is announced (thread 0), then the commit thread (thread 1) hands it over. -/
def announced : List Act := [.enter 0, .use 0 .byte, .use 0 .byte, .use 0 .byte, .leave 0]

/-- C85 fails: a state machine that reads the command when it is announced is given nothing when the command is committed: the position
is where it left it. A member that has sent the entry meanwhile, and one that reads it from the file again, is given the whole command.
So the members' state machines see different commands. -/
theorem commit_given_rest :
    ((World.stored threeBytes).run ctx5 (announced ++ [.enter 1])).given = [(0, [1, 2, 3]), (1, [])] ∧
    ((World.stored threeBytes).run ctx5 (announced ++ [.take 2, .rewind 2, .copy 2, .enter 1])).given = [(0, [1, 2, 3]), (1, [1, 2, 3])] ∧
    ((World.stored threeBytes).run ctx5 (announced ++ [.drop, .enter 1])).given = [(0, [1, 2, 3]), (1, [1, 2, 3])] := by
  decide +kernel

/-- C85 fails: the entry is sent while it is being committed, and the state machine reads the first byte twice. -/
theorem read_twice :
    ((World.stored threeBytes).run ctx5 [.take 2, .enter 1, .use 1 .byte, .rewind 2, .use 1 .byte, .copy 2]).heard =
      [(1, .ok (.byte 1)), (1, .ok (.byte 1))] := by
  decide +kernel

/-- C85 fails: the state machine reads the command while it is being sent, and what is sent is not the command: the first byte is
missing, and the last one is whatever the memory held. The other member stores and commits that. -/
theorem sent_broken :
    ((World.stored threeBytes).run ctx5 [.take 2, .rewind 2, .enter 1, .use 1 .byte, .copy 2]).sent =
      [.ok (entryBytes 5 1 [2, 3, 0xEE])] := by
  decide +kernel

/-- The same for every command: if the state machine has read up to position `p` when the entry is copied, the first `p` bytes are
missing in the request, and `p` bytes of other memory are sent at its end. -/
theorem sent_shifted (c : Ctx) {b : Buf} (hb : Reach b) (hs : 13 + b.data.length < 2 ^ 31) :
    ∃ rest b', rest.length = b.pos ∧ copyEntry c.junk c.term c.vtype b = .ok b' ∧
      b'.data = entryBytes c.term c.vtype (b.data.drop b.pos ++ rest) := by
  obtain ⟨d, p, ha⟩ := hb.at
  rw [ha.data] at *
  obtain ⟨b', rest, h1, h2, h3⟩ := copyEntry_at c.junk c.term c.vtype ha hs
  refine ⟨rest, b', by rw [ha.pos, h2], h1, ?_⟩
  have : (d.drop p ++ rest).length = d.length := by have := ha.le; simp; omega
  rw [h3, ha.pos, entryBytes, this]

/-- Configurations: the commit thread rewinds the buffer before it reads a configuration (src/raft_server.cxx 922), but
`snapshot_and_compact` does not (565): a configuration that has been committed and is still kept cannot be read there, and no snapshot is
made. Whatever the configuration is, reading it a second time throws. -/
theorem conf_read_again (junk : Byte) (conf : ClusterConf) (hv : ∀ s ∈ conf.servers, s.Valid) (hs : conf.encSize < 2 ^ 31) :
    ∃ b b', conf.serialize junk = .ok b ∧ ClusterConf.deserialize b = (.ok conf, b') ∧
      (ClusterConf.deserialize b').1 = .error .thrown ∧
      (ClusterConf.deserialize (seek 0 b').2).1 = .ok conf := by
  obtain ⟨b, h1, h2, h3, h4, h5⟩ := C06_cluster_config junk conf hv hs
  obtain ⟨b', g1, g2, g3⟩ := h5 b [] h2 (by simp)
  refine ⟨b, b', h1, g1, ?_, ?_⟩
  · obtain ⟨d, p, ha⟩ := g2.at
    rw [content_at ha] at g3
    have hlen := congrArg List.length g3
    rw [List.length_drop] at hlen
    rw [ClusterConf.deserialize, run_bind_err (getULong_short ha (by simp at hlen; omega))]
  · have hd : b'.data = b.data := by
      obtain ⟨b1, w1, w2⟩ := ClusterConf.serialize_ok junk conf (by rw [encSize_conf]; exact hs)
      rw [h1] at w1
      cases w1
      obtain ⟨r', e1, e2⟩ := ClusterConf.deserialize_ok conf hv (r := b) (pre := []) (rest := []) (by simpa using w2)
      rw [g1] at e1
      cases e1
      rw [e2.data, w2.data]; simp
    obtain ⟨d, p, ha⟩ := g2.at
    have hz := seek0_at ha
    obtain ⟨r', k1, _⟩ := h5 (seek 0 b').2 [] hz.reach (by
      rw [content_at hz, List.drop_zero, ← ha.data, hd, Buf.content, h3]; simp)
    rw [k1]

/-! ## Instances -/

/-- The hypotheses of `sent_whole_partial`: the state machine reads before and after, another thread sends at the same time. -/
example : ((World.stored threeBytes).run ctx5 [.enter 0, .use 0 .byte, .take 2]).sending 2 ≠ none ∧
    ∀ a ∈ [Act.take 3, .rewind 3, .enter 1], a.isUse = false ∧ a ≠ .take 2 ∧ a ≠ .copy 2 := by decide

/-- The hypotheses of `read_whole_partial`: the state machine has read before, and another thread copies the entry meanwhile. -/
example : ((World.stored threeBytes).run ctx5 [.enter 0, .use 0 .byte, .leave 0, .take 2, .rewind 2, .enter 1, .use 1 (.seek 0),
    .use 1 .byte, .copy 2, .use 1 .byte]).heard = [(0, .ok (.byte 1)), (1, .ok .none), (1, .ok (.byte 1)), (1, .ok (.byte 2))] := by
  decide +kernel

example : Undisturbed 1 [.use 1 .byte, .copy 2, .use 1 .byte] := by
  intro a ha
  simp only [List.mem_cons, List.not_mem_nil, or_false] at ha
  rcases ha with rfl | rfl | rfl <;> simp

end Cs.Share
