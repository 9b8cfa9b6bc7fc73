import Verif.LogStore.Close
import Verif.LogStore.PropsFull

/-!
# Closing a store keeps its log (C119)
-/

namespace Cs.LogStore
open Cs Cs.Buffer

/-! ## Specification -/

/-- Calls other than opening the store again and compacting the whole log. -/
def Tame (l : Log) (op : Op) : Prop := (∀ b, op ≠ .reopen b) ∧ ∀ i, op = .compact i → i < l.start ∨ i + 1 < l.next

/-! ## Proofs -/

/-- All streams are failed. -/
structure Dead (s : Store) : Prop where
  idx : s.idx.bad = true
  dat : s.dat.bad = true
  sti : s.sti.bad = true

/-- Nothing is changed. -/
def Leaves {α : Type} (m : M Store α) : Prop := ∀ s, Dead s → (m s).2 = s

/-- An exception, and nothing is changed. -/
def Ends {α : Type} (m : M Store α) : Prop := ∀ s, Dead s → ∃ f, m s = (.error f, s)

theorem Ends.leaves {α : Type} {m : M Store α} (h : Ends m) : Leaves m := fun s hs => by
  obtain ⟨f, hf⟩ := h s hs
  rw [hf]

theorem Ends.bind {α β : Type} {m : M Store α} {k : α → M Store β} (h : Ends m) : Ends (m >>= k) := fun s hs => by
  obtain ⟨f, hf⟩ := h s hs
  exact ⟨f, run_bind_err hf⟩

theorem Leaves.ends {α β : Type} {m : M Store α} {k : α → M Store β} (h : Leaves m) (hk : ∀ a, Ends (k a)) : Ends (m >>= k) := fun s hs => by
  have := h s hs
  rcases hm : m s with ⟨r, s'⟩
  rw [hm] at this
  change s' = s at this
  subst this
  cases r with
  | ok a =>
    obtain ⟨f, hf⟩ := hk a _ hs
    exact ⟨f, by rw [run_bind_ok hm, hf]⟩
  | error e => exact ⟨e, run_bind_err hm⟩

theorem Leaves.bind {α β : Type} {m : M Store α} {k : α → M Store β} (h : Leaves m) (hk : ∀ a, Leaves (k a)) : Leaves (m >>= k) := fun s hs => by
  have := h s hs
  rcases hm : m s with ⟨r, s'⟩
  rw [hm] at this
  change s' = s at this
  subst this
  cases r with
  | ok a => rw [run_bind_ok hm]; exact hk a _ hs
  | error e => rw [run_bind_err hm]

theorem leaves_pure {α : Type} (a : α) : Leaves (pure a : M Store α) := fun _ _ => rfl
theorem ends_throw {α : Type} (f : Fault) : Ends (throw f : M Store α) := fun _ _ => ⟨f, rfl⟩
theorem leaves_get : Leaves (get : M Store Store) := fun _ _ => rfl
theorem leaves_lift {α : Type} (x : Except Fault α) : Leaves (lift x) := fun _ _ => by cases x <;> rfl
theorem ends_check : Ends checkIO := fun s hs => by
  refine ⟨.thrown, ?_⟩
  show (if s.dat.bad = true ∨ s.idx.bad = true then throw Fault.thrown else pure () : M Store Unit) s = _
  rw [if_pos (.inl hs.dat)]; rfl

/-- An operation that leaves a failed stream as it is. -/
def Still {α : Type} (m : M File α) : Prop := ∀ b p, (m ⟨b, p, true⟩).2 = ⟨b, p, true⟩

/-- An operation that throws on a failed stream. -/
def Throws {α : Type} (m : M File α) : Prop := ∀ b p, ∃ f, m ⟨b, p, true⟩ = (.error f, ⟨b, p, true⟩)

theorem Still.idx {α : Type} {m : M File α} (h : Still m) : Leaves (onIdx m) := fun s hs => by
  obtain ⟨⟨b, p, bad⟩, d, st, c, s0, ca, bs⟩ := s
  obtain rfl : bad = true := hs.idx
  show Store.mk (m ⟨b, p, true⟩).2 d st c s0 ca bs = _
  rw [h]

theorem Still.dat {α : Type} {m : M File α} (h : Still m) : Leaves (onDat m) := fun s hs => by
  obtain ⟨d, ⟨b, p, bad⟩, st, c, s0, ca, bs⟩ := s
  obtain rfl : bad = true := hs.dat
  show Store.mk d (m ⟨b, p, true⟩).2 st c s0 ca bs = _
  rw [h]

theorem Throws.idx {α : Type} {m : M File α} (h : Throws m) : Ends (onIdx m) := fun s hs => by
  obtain ⟨⟨b, p, bad⟩, d, st, c, s0, ca, bs⟩ := s
  obtain rfl : bad = true := hs.idx
  obtain ⟨f, hf⟩ := h b p
  exact ⟨f, by show ((m ⟨b, p, true⟩).1, Store.mk (m ⟨b, p, true⟩).2 d st c s0 ca bs) = _; rw [hf]⟩

theorem Throws.dat {α : Type} {m : M File α} (h : Throws m) : Ends (onDat m) := fun s hs => by
  obtain ⟨d, ⟨b, p, bad⟩, st, c, s0, ca, bs⟩ := s
  obtain rfl : bad = true := hs.dat
  obtain ⟨f, hf⟩ := h b p
  exact ⟨f, by show ((m ⟨b, p, true⟩).1, Store.mk d (m ⟨b, p, true⟩).2 st c s0 ca bs) = _; rw [hf]⟩

theorem still_seek (n : Nat) : Still (seek n) := fun _ _ => rfl
theorem still_end : Still seekEnd := fun _ _ => rfl
theorem still_tell : Still tell := fun _ _ => rfl
theorem still_raw (bs : List Byte) : Still (writeRaw bs) := fun _ _ => rfl
theorem throws_write (bs : List Byte) : Throws (write bs) := fun _ _ => ⟨.thrown, rfl⟩
theorem throws_block (n : Nat) : Throws (readBlock n) := fun b p => by
  rw [readBlock]
  by_cases h : 2 ^ 31 ≤ n
  · rw [if_pos h]; exact ⟨_, rfl⟩
  · rw [if_neg h]; exact ⟨_, rfl⟩
theorem throws_ulong : Throws readULong := fun b p => by
  obtain ⟨f, hf⟩ := throws_block 8 b p
  exact ⟨f, run_bind_err hf⟩

theorem leaves_ite {α : Type} {c : Prop} [Decidable c] {a b : M Store α} (ha : Leaves a) (hb : Leaves b) : Leaves (if c then a else b) := by
  by_cases h : c
  · rw [if_pos h]; exact ha
  · rw [if_neg h]; exact hb

theorem ends_ite {α : Type} {c : Prop} [Decidable c] {a b : M Store α} (ha : Ends a) (hb : Ends b) : Ends (if c then a else b) := by
  by_cases h : c
  · rw [if_pos h]; exact ha
  · rw [if_neg h]; exact hb

theorem dead_append (e : Ent) : Ends (append e) :=
  still_end.idx.ends fun _ => still_end.dat.ends fun _ => still_tell.dat.ends fun _ => (throws_write _).idx.bind

theorem dead_writePos (n : Nat) : Leaves (writePos n) :=
  leaves_get.bind fun _ => leaves_ite ((still_seek _).idx.bind fun _ => throws_ulong.idx.bind.leaves) still_end.dat

theorem dead_writeAt (i : Nat) (e : Ent) : Ends (writeAt i e) :=
  leaves_get.ends fun s => ends_ite (ends_throw _).bind
    ((dead_writePos _).ends fun _ => (still_seek _).idx.ends fun _ => still_tell.dat.ends fun _ => (throws_write _).idx.bind)

theorem dead_readFiles (i : Nat) (r : List (Option Ent)) : Ends (readFiles i r) := ends_check.bind

theorem dead_logEntries (i j : Nat) : Leaves (logEntries i j) :=
  leaves_get.bind fun s => leaves_ite (ends_throw _).leaves (leaves_ite (leaves_pure _)
    ((leaves_lift _).bind fun _ => leaves_ite (dead_readFiles _ _).bind.leaves (leaves_pure _)))

theorem dead_entryAt (i : Nat) : Leaves (entryAt i) := leaves_get.bind fun s => by
  cases s.cache.at i with
  | some e => exact leaves_pure _
  | none => exact leaves_ite (ends_throw _).bind.leaves (ends_check.bind.leaves)

theorem dead_termAt (i : Nat) : Leaves (termAt i) :=
  leaves_get.bind fun s => leaves_ite (leaves_pure _) (leaves_ite (ends_throw _).bind.leaves (ends_check.bind.leaves))

theorem dead_pack (i : Nat) (n : Int) : Leaves (pack i n) :=
  leaves_get.bind fun s => leaves_ite (ends_throw _).bind.leaves (ends_check.bind.leaves)

theorem dead_packPos (n : Nat) : Leaves (packPos n) :=
  leaves_get.bind fun _ => leaves_ite (still_end.idx.bind fun _ => still_end.dat) ((still_seek _).idx.bind fun _ => throws_ulong.idx.bind.leaves)

theorem dead_relocate (prev first : Nat) : ∀ (n : Nat) (bs : List Byte), Leaves (relocate prev first n bs)
  | 0, _ => leaves_pure _
  | n + 1, bs => leaves_ite (ends_throw _).bind.leaves ((still_raw _).idx.bind fun _ => dead_relocate prev first n _)

theorem dead_packWrite (n m : Nat) (bs : List Byte) : Leaves (packWrite n m bs) := by
  have hlast : Leaves (do
      if bs.length < n + m then throw .ub
      onDat (writeRaw ((bs.drop n).take m)) : M Store Unit) :=
    leaves_ite (ends_throw _).bind.leaves ((still_raw _).dat)
  refine still_tell.dat.bind fun p => leaves_ite (ends_throw _).bind.leaves (?_)
  refine leaves_ite (leaves_ite (ends_throw _).bind.leaves ((still_raw _).idx.bind fun _ => hlast)) ?_
  exact (dead_relocate _ _ _ _).bind fun _ => hlast

theorem dead_packTrunc : Leaves packTrunc := fun s hs => by
  obtain ⟨⟨b, p, bad⟩, ⟨b', p', bad'⟩, st, c, s0, ca, bs⟩ := s
  obtain rfl : bad = true := hs.idx
  obtain rfl : bad' = true := hs.dat
  have hs : ∀ (Y : List Byte) (r : Nat), seekEnd (⟨Y, r, true⟩ : File) = (.ok (), ⟨Y, r, true⟩) := fun _ _ => rfl
  have ht : ∀ (Y : List Byte) (r : Nat), tell (⟨Y, r, true⟩ : File) = (.ok (2 ^ 64 - 1), ⟨Y, r, true⟩) := fun _ _ => rfl
  rw [packTrunc, bIdx (ht _ _), bDat (ht _ _), bIdx (hs _ _), bDat (hs _ _), bIdx (ht _ _), if_neg (by omega)]
  rfl

theorem dead_applyPack (i : Nat) (bs : List Byte) : Ends (applyPack i bs) := by
  unfold applyPack
  refine leaves_get.ends fun s => ?_
  refine ends_ite (ends_throw _).bind ?_
  refine ends_ite (ends_throw _).bind ?_
  refine ends_ite (ends_throw _).bind ?_
  refine (dead_packPos _).ends fun _ => ?_
  refine (dead_packWrite _ _ _).ends fun _ => ?_
  refine dead_packTrunc.ends fun _ => ?_
  exact ends_check.bind

theorem dead_compactPart (i : Nat) : Ends (compactPart i) :=
  leaves_get.ends fun _ => (still_seek _).idx.ends fun _ => throws_ulong.idx.bind

theorem dead_compact {s : Store} (i : Nat) (hs : Dead s) (hi : i < s.start ∨ i + 1 < s.start + s.count) : ∃ f, compact i s = (.error f, s) := by
  rw [compact, bget]
  by_cases h : i < s.start
  · rw [if_pos h]; exact ⟨_, rfl⟩
  · rw [if_neg h, if_neg (by omega)]
    exact (dead_compactPart i).bind s hs

theorem wrap_keeps {α : Type} {f : α → Res} {m : M Store α} {s : Store} (h : (m s).2 = s) : (wrap f m s).2 = s := by
  unfold wrap
  rcases hm : m s with ⟨r, s'⟩
  rw [hm] at h
  change s' = s at h
  subst h
  cases r <;> rfl

/-- Tame calls on failed streams change nothing. -/
theorem dead_call {s : Store} {l : Log} (hs : Dead s) (h1 : s.start = l.start) (h2 : s.count = l.ents.length) {op : Op} (ht : Tame l op) :
    (op.run s).2 = s := by
  cases op with
  | nextSlot => exact wrap_keeps rfl
  | startIndex => exact wrap_keeps rfl
  | lastEntry => exact wrap_keeps rfl
  | entryAt i => exact wrap_keeps (dead_entryAt i s hs)
  | termAt i => exact wrap_keeps (dead_termAt i s hs)
  | logEntries i j => exact wrap_keeps (dead_logEntries i j s hs)
  | append e => exact wrap_keeps ((dead_append e).leaves s hs)
  | writeAt i e => exact wrap_keeps ((dead_writeAt i e).leaves s hs)
  | compact i =>
    refine wrap_keeps ?_
    obtain ⟨f, hf⟩ := dead_compact i hs (by rw [h1, h2]; exact ht.2 i rfl)
    rw [hf]
  | pack i n => exact wrap_keeps (dead_pack i n s hs)
  | applyPack i p => exact wrap_keeps ((dead_applyPack i p).leaves s hs)
  | reopen b => exact absurd rfl (ht.1 b)

theorem dead_calls {s : Store} {l : Log} (hs : Dead s) (h1 : s.start = l.start) (h2 : s.count = l.ents.length) :
    ∀ ops : List Op, (∀ op ∈ ops, Tame l op) → callAll ops s = s
  | [], _ => rfl
  | op :: ops, h => by
    rw [callAll, dead_call hs h1 h2 (h op List.mem_cons_self)]
    exact dead_calls hs h1 h2 ops fun o ho => h o (List.mem_cons_of_mem _ ho)

/-! ## C119 -/

/-- C119, `_partial`: after `close` the log is shown as far as it is in the cache, whatever is called, and a store that is opened on the files
shows the log. Missing: compaction of the whole log (`closed_compaction_loses`, `closed_compaction_renumbers`). -/
theorem closed_store_stays_partial {s : Store} {l : Log} (h : Reach s l) (ops : List Op) (hops : ∀ op ∈ ops, Tame l op) :
    ShowsFrom (callAll ops (close s).2) l s.cache.first ∧ (∀ e, ∃ f, (append e (callAll ops (close s).2)).1 = .error f) ∧
      ∀ b, b ≠ 0 → ∃ t, openOn (callAll ops (close s).2).disk b = .ok t ∧ Shows t l := by
  have hd : Dead (close s).2 := ⟨rfl, rfl, rfl⟩
  rw [dead_calls hd h.rep.start h.rep.count ops hops]
  refine ⟨(h.rep.mem.of (s' := (close s).2) rfl rfl rfl).shows, fun e => ?_, fun b hb => ?_⟩
  · obtain ⟨f, hf⟩ := dead_append e _ hd
    exact ⟨f, by rw [hf]⟩
  · obtain ⟨t, h1, h2, -⟩ := C15_reopen h b hb
    exact ⟨t, h1, h2⟩

/-- Compacting everything on failed streams. -/
theorem dead_compact_all {s : Store} {l : Log} (h : Reach s l) (i : Nat) (hi : l.start ≤ i) (hn : l.next ≤ i + 1) :
    compact i (close s).2 = (.error .thrown, { (close s).2 with idx := ⟨[], 0, false⟩, dat := ⟨[], 0, false⟩ }) := by
  have hr := h.rep
  obtain ⟨ip, dp, sp, f, bs, rfl, -, -, -, -⟩ := hr.parts
  have hnext : l.next = l.start + l.ents.length := rfl
  have hc : (close (repStore l l.ents ip dp sp f bs)).2 = ⟨⟨idxBytes 0 l.ents, ip, true⟩, ⟨datBytes l.ents, dp, true⟩,
    ⟨le8 (BitVec.ofNat 64 l.start), sp, true⟩, l.ents.length, l.start, ⟨f, l.ents.drop (f - l.start), bs⟩, bs⟩ := rfl
  rw [hc, compact, bget]
  simp only []
  rw [if_neg (by omega), if_pos (by omega)]
  rfl

/-- C119 is false: compacting the whole log of a closed store throws, and removes all entries from the files. The first index stays. -/
theorem closed_compaction_loses {s : Store} {l : Log} (h : Reach s l) (i : Nat) (hi : l.start ≤ i) (hn : l.next ≤ i + 1) :
    ∃ s', compact i (close s).2 = (.error .thrown, s') ∧ ShowsFrom s' l s.cache.first ∧
      ∀ b, b ≠ 0 → ∃ t, openOn s'.disk b = .ok t ∧ Shows t ⟨l.start, []⟩ := by
  have hf := h.rep.fits
  refine ⟨_, dead_compact_all h i hi hn, (h.rep.mem.of (by rfl) (by rfl) (by rfl)).shows, fun b hb => ?_⟩
  obtain ⟨t, h1, h2⟩ := open_ok (l := ⟨l.start, []⟩) ⟨by show (0:Nat) < 2 ^ 31; decide, by have := hf.2.1; simp only [Log.next] at this ⊢; simp; omega, hf.2.2⟩ b hb
  refine ⟨t, ?_, h2.1.shows⟩
  rw [← h1]
  have := h.rep.disk
  show openOn ⟨[], [], s.disk.sti⟩ b = _
  rw [this]
  rfl

/-- C119 is false: entries that are appended after that are accepted, and have other indexes when the store is opened again. -/
theorem closed_compaction_renumbers {s : Store} {l : Log} (h : Reach s l) (hne : l.ents ≠ []) (i : Nat) (hn : l.next ≤ i + 1) (e : Ent)
    (he : Log.Fits ⟨l.start, [e]⟩) :
    ∃ s' s'', compact i (close s).2 = (.error .thrown, s') ∧ append e s' = (.ok l.next, s'') ∧ l.start < l.next ∧
      ∀ b, b ≠ 0 → ∃ t, openOn s''.disk b = .ok t ∧ Shows t ⟨l.start, [e]⟩ := by
  have hpos := List.length_pos_iff.2 hne
  have hnext : l.next = l.start + l.ents.length := rfl
  have hc := dead_compact_all h i (by omega) hn
  have hdisk := h.rep.disk
  have hsm : 9 + e.data.length < 2 ^ 31 := by
    have := he.1
    simp only [dataSize_cons, dataSize_nil] at this
    omega
  have hr := h.rep
  obtain ⟨ip, dp, sp, f, bs, rfl, -, -, -, -⟩ := hr.parts
  have ha : append e { (close (repStore l l.ents ip dp sp f bs)).2 with idx := ⟨[], 0, false⟩, dat := ⟨[], 0, false⟩ } =
      (.ok l.next, ⟨⟨le8 (BitVec.ofNat 64 0), 8, false⟩, ⟨e.bytes, e.bytes.length, false⟩, ⟨le8 (BitVec.ofNat 64 l.start), sp, true⟩,
        l.ents.length + 1, l.start, Cache.append ⟨f, l.ents.drop (f - l.start), bs⟩ e, bs⟩) := by
    unfold append
    rw [bIdx se, bDat se, bDat tl, bIdx wrt, serialize_ok e hsm, blift, bDat wrt, bmod, bchk]
    have hov : ∀ x : List Byte, overwrite [] 0 x = x := fun x => overwrite_end [] x
    simp only [List.length_nil, hov, Nat.zero_add]
    rfl
  refine ⟨_, _, hc, ha, by omega, fun b hb => ?_⟩
  obtain ⟨t, h1, h2⟩ := open_ok (l := ⟨l.start, [e]⟩) he b hb
  refine ⟨t, ?_, h2.1.shows⟩
  rw [← h1]
  show openOn ⟨le8 (BitVec.ofNat 64 0), e.bytes, _⟩ b = openOn ⟨idxBytes 0 [e], datBytes [e], _⟩ b
  rw [idxBytes_cons, datBytes_cons, datBytes_nil, List.append_nil]
  rfl

/-- A store of three entries of which two are in the cache, tame calls, and the compaction of all of them. -/
example : ∃ s, Reach s ⟨1, [e3, e3, e1]⟩ ∧ (∀ op ∈ [Op.append e3, .compact 1, .applyPack 2 [1, 2, 3], .entryAt 3], Tame ⟨1, [e3, e3, e1]⟩ op) ∧
    Log.next ⟨1, [e3, e3, e1]⟩ ≤ 3 + 1 ∧ Log.Fits ⟨1, [e3]⟩ := by
  obtain ⟨s, h, -⟩ := reach_three
  refine ⟨s, h, ?_, by decide, by decide, by decide, by decide⟩
  intro op ho
  simp only [List.mem_cons, List.not_mem_nil, or_false] at ho
  rcases ho with rfl | rfl | rfl | rfl <;> refine ⟨fun b hb => (by cases hb), fun i hi => ?_⟩ <;> cases hi
  exact .inr (by decide)

end Cs.LogStore
