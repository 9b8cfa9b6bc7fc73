import Verif.LogStore.Props

/-!
# C86: cookies

`raft_server::replicate_log` puts a cookie, an object in memory, on the entry it makes (src/raft_server.cxx 1080-1101), so that the
state machine of the leader finds it when the entry is committed (include/log_entry.hxx 28-33). The cookie is a member of the entry
object and not part of what is written to the files (`log_entry::serialize`, 104-113), so it is there as long as the log store keeps the
object. Here the cookies of the objects in the cache are modelled next to the store.
-/

namespace Cs.LogStore
open Cs Cs.Buffer

/-- A store, and for each entry object in its cache the cookie it carries. -/
structure Tagged where
  store : Store
  tags : List (Option Nat)

/-- `log_store_buffer::append`, fs_log_store.cxx 141-150, on the objects. -/
def pushTag (max : Nat) (tags : List (Option Nat)) (k : Option Nat) : List (Option Nat) :=
  if max < (tags ++ [k]).length then (tags ++ [k]).drop 1 else tags ++ [k]

/-- What becomes of the objects in the cache. `append` (fs_log_store.cxx 287) and `write_at` (356-361) put the object they are given in
the cache; `apply_pack` (640-641), `compact` (735 and 805-806) and the constructor (248-250) fill the cache with objects that
`log_entry::deserialize` makes (879-887), which have no cookie. -/
def tagsAfter (op : Op) (k : Option Nat) (s s' : Store) (tags : List (Option Nat)) : List (Option Nat) :=
  match op with
  | .append _ => pushTag s.cache.max tags k
  | .writeAt i _ =>
    pushTag s.cache.max (if i - s.start + 1 ≤ s.count ∧ s.cache.first ≤ i then tags.take (i - s.cache.first) else tags) k
  | .compact _ | .applyPack _ _ | .reopen _ => List.replicate s'.cache.buf.length none
  | _ => tags

/-- One operation; the entry, if there is one, comes with the cookie `k`. -/
def Tagged.step (t : Tagged) (op : Op) (k : Option Nat) : Except Fault Res × Tagged :=
  ((op.run t.store).1, ⟨(op.run t.store).2, tagsAfter op k t.store (op.run t.store).2 t.tags⟩)

/-- Several operations, all of which succeed; otherwise nothing. -/
def Tagged.runs : List (Op × Option Nat) → Tagged → Option Tagged
  | [], t => some t
  | (op, k) :: ops, t =>
    match (t.step op k).1 with
    | .ok _ => Tagged.runs ops (t.step op k).2
    | .error _ => none

/-- The cookie of the object `entry_at` returns, fs_log_store.cxx 443-447 and 479: the one in the cache, otherwise a new object. -/
def Tagged.cookie (t : Tagged) (i : Nat) : Option Nat :=
  if i < t.store.cache.first then none else (t.tags[i - t.store.cache.first]?).join

/-- Operations that neither replace entries nor fill the cache anew. -/
def Op.plain : Op → Bool
  | .append _ | .nextSlot | .startIndex | .lastEntry | .entryAt _ | .termAt _ | .logEntries _ _ => true
  | _ => false

/-- Does the operation append an entry? -/
def Op.appends : Op → Bool
  | .append _ => true
  | _ => false

/-- How many entries are appended. -/
def appended (ops : List (Op × Option Nat)) : Nat := (ops.filter fun o => o.1.appends).length

/-! ## The cache is left alone by reads -/

/-- Runs of `m` do not change the cache. -/
def KeepsCache {α : Type} (m : M Store α) : Prop := ∀ s, (m s).2.cache = s.cache

theorem kc_bind {α β : Type} {m : M Store α} {f : α → M Store β} (hm : KeepsCache m) (hf : ∀ a, KeepsCache (f a)) :
    KeepsCache (m >>= f) := by
  intro s
  rw [run_bind]
  have h1 := hm s
  rcases hs : m s with ⟨r | a, s1⟩
  · rw [hs] at h1; exact h1
  · rw [hs] at h1
    exact (hf a s1).trans h1

theorem kc_pure {α : Type} (a : α) : KeepsCache (pure a) := fun _ => rfl
theorem kc_throw {α : Type} (e : Fault) : KeepsCache (α := α) (throw e) := fun _ => rfl
theorem kc_get : KeepsCache (get : M Store Store) := fun _ => rfl
theorem kc_onIdx {α : Type} (m : M File α) : KeepsCache (onIdx m) := fun _ => rfl
theorem kc_onDat {α : Type} (m : M File α) : KeepsCache (onDat m) := fun _ => rfl
theorem kc_lift {α : Type} (x : Except Fault α) : KeepsCache (lift x) := by
  intro s; cases x <;> rfl
theorem kc_ite {α : Type} {c : Prop} [Decidable c] {m m' : M Store α} (h : KeepsCache m) (h' : KeepsCache m') :
    KeepsCache (if c then m else m') := by split <;> assumption
theorem kc_checkIO : KeepsCache checkIO := kc_bind kc_get fun _ => kc_ite (kc_throw _) (kc_pure _)

theorem kc_readRange : ∀ n d, KeepsCache (readRange n d)
  | 0, _ => kc_pure _
  | n + 1, _ => kc_bind (kc_onIdx _) fun _ => kc_bind (kc_onDat _) fun _ => kc_bind (kc_onDat _) fun _ => kc_bind (kc_lift _) fun _ =>
      kc_bind (kc_readRange n _) fun _ => kc_pure _

theorem kc_readFiles (start : Nat) (r) : KeepsCache (readFiles start r) :=
  kc_bind kc_checkIO fun _ => kc_bind kc_get fun _ => kc_bind (kc_onIdx _) fun _ => kc_bind (kc_onIdx _) fun _ =>
    kc_bind (kc_readRange _ _) fun _ => kc_pure _

theorem kc_logEntries (i j : Nat) : KeepsCache (logEntries i j) :=
  kc_bind kc_get fun _ => kc_ite (kc_throw _) (kc_ite (kc_pure _) (kc_bind (kc_lift _) fun _ =>
    kc_ite (kc_bind (kc_readFiles _ _) fun _ => kc_pure _) (kc_pure _)))

theorem kc_entryAt (i : Nat) : KeepsCache (entryAt i) := by
  refine kc_bind kc_get fun s => ?_
  split
  · exact kc_pure _
  · refine kc_ite (kc_throw _) ?_
    exact kc_bind kc_checkIO fun _ => kc_ite (kc_pure _) (kc_bind (kc_onIdx _) fun _ => kc_bind (kc_onIdx _) fun _ =>
        kc_bind (kc_onIdx _) fun _ => kc_bind (kc_onDat _) fun _ => kc_bind (kc_onDat _) fun _ => kc_bind (kc_lift _) fun _ => kc_pure _)

theorem kc_termAt (i : Nat) : KeepsCache (termAt i) := by
  refine kc_bind kc_get fun s => kc_ite (kc_pure _) ?_
  refine kc_ite (kc_throw _) ?_
  exact kc_bind kc_checkIO fun _ => kc_bind (kc_onIdx _) fun _ => kc_bind (kc_onIdx _) fun _ =>
      kc_bind (kc_onDat _) fun _ => kc_bind (kc_onDat _) fun _ => kc_pure _

theorem wrap_cache {α : Type} (f : α → Res) {m : M Store α} (h : KeepsCache m) (s : Store) : (wrap f m s).2.cache = s.cache := by
  have := h s
  rw [wrap]
  rcases hs : m s with ⟨r | a, s1⟩ <;> rw [hs] at this <;> exact this

theorem bind_inv {α β : Type} {m : M Store α} {f : α → M Store β} {s s' : Store} {r : β} (h : (m >>= f) s = (.ok r, s')) :
    ∃ a s1, m s = (.ok a, s1) ∧ f a s1 = (.ok r, s') := by
  rw [run_bind] at h
  rcases hs : m s with ⟨e | a, s1⟩
  · rw [hs] at h; cases h
  · rw [hs] at h; exact ⟨a, s1, rfl, h⟩

theorem kc_of {α : Type} {m : M Store α} {s s' : Store} {x : Except Fault α} (hm : KeepsCache m) (h : m s = (x, s')) :
    s'.cache = s.cache := by
  have := hm s
  rwa [h] at this

theorem append_cache {e : Ent} {s s' : Store} {r : Nat} (h : LogStore.append e s = (.ok r, s')) : s'.cache = s.cache.append e := by
  unfold LogStore.append at h
  obtain ⟨_, s1, h1, h⟩ := bind_inv h
  obtain ⟨_, s2, h2, h⟩ := bind_inv h
  obtain ⟨_, s3, h3, h⟩ := bind_inv h
  obtain ⟨_, s4, h4, h⟩ := bind_inv h
  obtain ⟨_, s5, h5, h⟩ := bind_inv h
  obtain ⟨_, s6, h6, h⟩ := bind_inv h
  obtain ⟨_, s7, h7, h⟩ := bind_inv h
  obtain ⟨_, s8, h8, h⟩ := bind_inv h
  obtain ⟨_, s9, h9, h⟩ := bind_inv h
  have e1 := kc_of (kc_onIdx _) h1
  have e2 := kc_of (kc_onDat _) h2
  have e3 := kc_of (kc_onDat _) h3
  have e4 := kc_of (kc_onIdx _) h4
  have e5 := kc_of (kc_lift _) h5
  have e6 := kc_of (kc_onDat _) h6
  have e8 := kc_of kc_checkIO h8
  have e9 := kc_of kc_get h9
  rw [run_pure] at h
  rw [run_modify] at h7
  cases h
  cases h7
  rw [e9, e8, ← e1, ← e2, ← e3, ← e4, ← e5, ← e6]

/-- The cache after an operation that does not fill it anew. -/
def Op.cacheAfter : Op → Cache → Cache
  | .append e, c => c.append e
  | _, c => c

theorem plain_cache {op : Op} {s s' : Store} {r : Res} (hp : op.plain = true) (hr : op.run s = (.ok r, s')) :
    s'.cache = op.cacheAfter s.cache := by
  have hs : s' = (op.run s).2 := by rw [hr]
  cases op with
  | append e =>
    rw [Op.run, wrap] at hr
    rcases ha : LogStore.append e s with ⟨x | a, s1⟩
    · rw [ha] at hr; cases hr
    · rw [ha] at hr
      cases hr
      exact append_cache ha
  | nextSlot => rw [hs]; rfl
  | startIndex => rw [hs]; rfl
  | lastEntry => rw [hs]; rfl
  | entryAt i => rw [hs]; exact wrap_cache _ (kc_entryAt i) s
  | termAt i => rw [hs]; exact wrap_cache _ (kc_termAt i) s
  | logEntries i j => rw [hs]; exact wrap_cache _ (kc_logEntries i j) s
  | writeAt i e => cases hp
  | compact i => cases hp
  | pack i n => cases hp
  | applyPack i p => cases hp
  | reopen b => cases hp

/-! ## How long a cookie is kept -/

/-- `m` entries have been appended since the one with index `i` and cookie `k`. -/
structure Since (b i : Nat) (k : Option Nat) (m : Nat) (t : Tagged) : Prop where
  len : t.tags.length = t.store.cache.buf.length
  max : t.store.cache.max = b
  room : t.tags.length ≤ b
  last : t.store.cache.first + t.tags.length = i + 1 + m
  held : min (m + 1) b ≤ t.tags.length
  tag : t.store.cache.first ≤ i → t.tags[i - t.store.cache.first]? = some k

theorem since_append {b i k m} {t : Tagged} (h : Since b i k m t) (e : Ent) (k' : Option Nat) {r : Res} {s' : Store}
    (hr : (Op.append e).run t.store = (.ok r, s')) : Since b i k (m + 1) ⟨s', pushTag t.store.cache.max t.tags k'⟩ := by
  have hc : s'.cache = t.store.cache.append e := plain_cache (op := .append e) rfl hr
  obtain ⟨h1, h2, h3, h4, h5, h6⟩ := h
  unfold pushTag
  unfold Cache.append at hc
  simp only [List.length_append, List.length_cons, List.length_nil] at hc ⊢
  by_cases hm : b < t.tags.length + 1
  · rw [if_pos (by omega)] at hc ⊢
    have hf : s'.cache.first = t.store.cache.first + 1 := by rw [hc]
    refine ⟨?_, ?_, ?_, ?_, ?_, ?_⟩ <;> simp only [hf, hc]
    · simp [h1]
    · exact h2
    · simp; omega
    · simp; omega
    · simp; omega
    · intro hle
      have := h6 (by omega)
      rw [List.getElem?_drop]
      rw [show 1 + (i - (t.store.cache.first + 1)) = i - t.store.cache.first by omega]
      rw [List.getElem?_append_left (by omega)]
      exact this
  · rw [if_neg (by omega)] at hc ⊢
    have hf : s'.cache.first = t.store.cache.first := by rw [hc]
    refine ⟨?_, ?_, ?_, ?_, ?_, ?_⟩ <;> simp only [hf, hc]
    · simp [h1]
    · exact h2
    · simp; omega
    · simp; omega
    · simp; omega
    · intro hle
      rw [List.getElem?_append_left (by omega)]
      exact h6 hle

theorem since_runs {b i k} (hb : 1 ≤ b) : ∀ (ops : List (Op × Option Nat)) {m : Nat} {t t' : Tagged}, Since b i k m t →
    (∀ o ∈ ops, o.1.plain = true) → t.runs ops = some t' → Since b i k (m + appended ops) t'
  | [], m, t, t', h, _, hr => by
    cases hr
    exact h
  | (op, k') :: ops, m, t, t', h, hp, hr => by
    rw [Tagged.runs] at hr
    rcases hs : op.run t.store with ⟨x | r, s'⟩
    · simp only [Tagged.step, hs] at hr
      cases hr
    · simp only [Tagged.step, hs] at hr
      have hp0 := hp (op, k') (List.mem_cons_self ..)
      have hc := plain_cache (op := op) hp0 hs
      have key : Since b i k (m + if op.appends then 1 else 0) ⟨s', tagsAfter op k' t.store s' t.tags⟩ := by
        cases op with
        | append e => exact since_append h e k' hs
        | writeAt i e => cases hp0
        | compact i => cases hp0
        | pack i n => cases hp0
        | applyPack i p => cases hp0
        | reopen b => cases hp0
        | nextSlot | startIndex | lastEntry | entryAt _ | termAt _ | logEntries _ _ =>
          obtain ⟨h1, h2, h3, h4, h5, h6⟩ := h
          simp only [Op.cacheAfter] at hc
          refine ⟨?_, ?_, ?_, ?_, ?_, ?_⟩ <;> simp only [hc, tagsAfter, Op.appends] <;> (try simp) <;> assumption
      have := since_runs hb ops key (fun o ho => hp o (List.mem_cons_of_mem _ ho)) hr
      have he : appended ((op, k') :: ops) = (if op.appends then 1 else 0) + appended ops := by
        unfold appended
        rw [List.filter_cons]
        cases op.appends <;> simp [Nat.add_comm]
      rw [he, ← Nat.add_assoc]
      exact this

/-- C86 (partial): an entry is appended with a cookie to any store a history can lead to; afterwards entries are appended and read. As
long as fewer entries than the cache holds were appended, the entry read from the log carries the cookie; from then on it carries none.
Missing: the other operations, which take all cookies away (`cookie_lost`). -/
theorem cookie_kept_partial {t t1 t2 : Tagged} {l : Log} (hr : Reach t.store l) (hl : t.tags.length = t.store.cache.buf.length)
    (e : Ent) (k : Nat) (h1 : t.runs [(.append e, some k)] = some t1) (ops : List (Op × Option Nat))
    (hp : ∀ o ∈ ops, o.1.plain = true) (h2 : t1.runs ops = some t2) :
    t2.cookie l.next = if appended ops < t.store.bufSize then some k else none := by
  obtain ⟨C, hrep⟩ : ∃ C, Rep t.store l C := ⟨_, hr.rep⟩
  have hb := hrep.maxPos
  have hmax := hrep.max
  have hroom := hrep.room
  have hlen : t.store.cache.first + t.store.cache.buf.length = l.next := by
    have := hrep.first
    have h3 := hrep.nonempty
    rw [hrep.cached, List.length_drop, hrep.sameLen, Log.next]
    rcases h3 with h3 | ⟨h3, h4⟩
    · omega
    · rw [h3, h4]; simp
  have hs1 : Since t.store.bufSize l.next (some k) 0 t1 := by
    rw [Tagged.runs] at h1
    rcases hs : (Op.append e).run t.store with ⟨x | r, s'⟩
    · simp only [Tagged.step, hs] at h1
      cases h1
    · simp only [Tagged.step, hs, Tagged.runs, Option.some.injEq] at h1
      subst h1
      have hc : s'.cache = t.store.cache.append e := plain_cache (op := .append e) rfl hs
      unfold Cache.append at hc
      simp only [tagsAfter, pushTag]
      simp only [List.length_append, List.length_cons, List.length_nil] at hc ⊢
      by_cases hm : t.store.bufSize < t.tags.length + 1
      · rw [if_pos (by omega)] at hc ⊢
        have hf : s'.cache.first = t.store.cache.first + 1 := by rw [hc]
        refine ⟨?_, ?_, ?_, ?_, ?_, ?_⟩ <;> simp only [hc]
        · simp [hl]
        · exact hmax
        · simp; omega
        · simp; omega
        · simp; omega
        · intro _
          rw [List.getElem?_drop, List.getElem?_append_right (by omega)]
          rw [show 1 + (l.next - (t.store.cache.first + 1)) - t.tags.length = 0 by omega]
          rfl
      · rw [if_neg (by omega)] at hc ⊢
        have hf : s'.cache.first = t.store.cache.first := by rw [hc]
        refine ⟨?_, ?_, ?_, ?_, ?_, ?_⟩ <;> simp only [hc]
        · simp [hl]
        · exact hmax
        · simp; omega
        · simp; omega
        · simp; omega
        · intro _
          rw [List.getElem?_append_right (by omega)]
          rw [show l.next - t.store.cache.first - t.tags.length = 0 by omega]
          rfl
  have hs2 := since_runs hb ops hs1 hp h2
  obtain ⟨g1, g2, g3, g4, g5, g6⟩ := hs2
  rw [Tagged.cookie]
  by_cases hc : appended ops < t.store.bufSize
  · rw [if_pos hc, if_neg (by omega), g6 (by omega)]
    rfl
  · rw [if_neg hc, if_pos (by omega)]

/-! ## Where cookies are lost -/

/-- A new store, before the first operation. -/
def taggedNew (b : Int) : Option Tagged :=
  match openOn Disk.none b with
  | .ok s => some ⟨s, []⟩
  | .error _ => none

/-- The cookies of some entries after a history. -/
def cookiesAfter (b : Int) (ops : List (Op × Option Nat)) (is : List Nat) : Option (List (Option Nat)) :=
  (taggedNew b).bind fun t => (t.runs ops).map fun t' => is.map t'.cookie

/-- C86 fails: with the cache of default size, which holds all entries, two commands are accepted, each with a cookie; the log is
compacted up to the first one, as after a snapshot; the second is still in the log, but its cookie is gone. Likewise when the first one
is all the cache can hold. -/
theorem cookie_lost :
    cookiesAfter (-1) [(.append e3, some 7), (.append e3, some 8)] [1, 2] = some [some 7, some 8] ∧
    cookiesAfter (-1) [(.append e3, some 7), (.append e3, some 8), (.compact 1, none)] [2] = some [none] ∧
    cookiesAfter 1 [(.append e3, some 7), (.append e3, some 8)] [1, 2] = some [none, some 8] := by
  decide +kernel

/-- The hypotheses of `cookie_kept_partial` are met, with a cache of two entries: the cookie is there after one more entry, and not
after two. -/
example : cookiesAfter 2 [(.append e3, some 7), (.append e1, none), (.entryAt 1, none)] [1] = some [some 7] ∧
    cookiesAfter 2 [(.append e3, some 7), (.append e1, none), (.append e3, some 9)] [1] = some [none] := by
  decide +kernel

end Cs.LogStore
