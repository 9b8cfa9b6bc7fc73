import Verif.Rpc.Endpoint

/-!
# Addresses of servers (C69)
-/

namespace Cs.Rpc

theorem isHost_dot : isHost '.' = false := by decide
theorem isHost_colon : isHost ':' = false := by decide
theorem isHost_of_alnum {c : Char} (h : isAlnum c = true) : isHost c = true := by unfold isHost; rw [h]; rfl
theorem isAlnum_of_host {c : Char} (h : isHost c = true) (hn : (c == '-') = false) : isAlnum c = true := by
  unfold isHost at h; rw [hn, Bool.or_false] at h; exact h

theorem alnum_hyphen : isAlnum '-' = false := by decide

theorem star_char {p : Char → Bool} {w : List Char} : Lang.star (.char p) w ↔ ∀ c ∈ w, p c = true := by
  constructor
  · intro h
    induction h with
    | nil => intro c hc; cases hc
    | cons ha _ ih =>
      obtain ⟨x, hx, rfl⟩ := ha
      intro c hc
      rcases List.mem_append.1 hc with hc | hc
      · rw [List.mem_singleton.1 hc]; exact hx
      · exact ih c hc
  · intro h
    induction w with
    | nil => exact .nil
    | cons x w ih =>
      exact .cons (u := [x]) ⟨x, h x (List.mem_cons_self ..), rfl⟩ (ih fun c hc => h c (List.mem_cons_of_mem _ hc))

theorem plus_char {p : Char → Bool} {w : List Char} : Lang.plus (.char p) w ↔ w ≠ [] ∧ ∀ c ∈ w, p c = true := by
  constructor
  · rintro ⟨u, v, ⟨x, hx, rfl⟩, hv, rfl⟩
    refine ⟨by simp, fun c hc => ?_⟩
    rcases List.mem_append.1 hc with hc | hc
    · rw [List.mem_singleton.1 hc]; exact hx
    · exact star_char.1 hv c hc
  · rintro ⟨hne, h⟩
    cases w with
    | nil => exact absurd rfl hne
    | cons x w =>
      exact ⟨[x], w, ⟨x, h x (List.mem_cons_self ..), rfl⟩, star_char.2 fun c hc => h c (List.mem_cons_of_mem _ hc), rfl⟩

/-- The expression for hosts, unrolled once. -/
theorem hostLang_iff {w : List Char} : hostLang w ↔ (w ≠ [] ∧ ∀ c ∈ w, isAlnum c = true) ∨
    ∃ a b, a ≠ [] ∧ (∀ c ∈ a, isHost c = true) ∧ hostLang b ∧ w = a ++ '.' :: b := by
  constructor
  · rintro ⟨u, v, hu, hv, rfl⟩
    cases hu with
    | nil => exact .inl (plus_char.1 hv)
    | @cons x y hx hy =>
      right
      obtain ⟨a, d, ha, ⟨c, hc, rfl⟩, rfl⟩ := hx
      obtain ⟨h1, h2⟩ := plus_char.1 ha
      have hc' : c = '.' := by simpa using hc
      subst hc'
      exact ⟨a, y ++ v, h1, h2, ⟨y, v, hy, hv, rfl⟩, by simp⟩
  · rintro (h | ⟨a, b, h1, h2, ⟨y, v, hy, hv, rfl⟩, rfl⟩)
    · exact ⟨[], w, .nil, plus_char.2 h, rfl⟩
    · refine ⟨(a ++ ['.']) ++ y, v, .cons ⟨a, ['.'], plus_char.2 ⟨h1, h2⟩, ⟨'.', by simp, rfl⟩, rfl⟩ hy, hv, by simp⟩

theorem hostLang_chars : ∀ (n : Nat) {w : List Char}, w.length ≤ n → hostLang w → ∀ c ∈ w, isHost c = true ∨ c = '.'
  | n, w, hn, h, c, hc => by
    rcases hostLang_iff.1 h with h | ⟨a, b, h1, h2, h3, rfl⟩
    · exact .inl (isHost_of_alnum (h.2 c hc))
    · rcases List.mem_append.1 hc with hc | hc
      · exact .inl (h2 c hc)
      · rcases List.mem_cons.1 hc with hc | hc
        · exact .inr hc
        · cases n with
          | zero => simp at hn
          | succ n =>
            refine hostLang_chars n ?_ h3 c hc
            simp at hn; omega

theorem hostLang_nil : ¬ hostLang [] := by
  intro h
  rcases hostLang_iff.1 h with h | ⟨a, b, h1, _, _, e⟩
  · exact h.1 rfl
  · cases a with
    | nil => exact h1 rfl
    | cons => cases e

/-- Two texts without `c`, each followed by `c`, are the same if the whole is. -/
theorem append_cons_inj {c : Char} : ∀ {a a' b b' : List Char}, c ∉ a → c ∉ a' → a ++ c :: b = a' ++ c :: b' → a = a' ∧ b = b'
  | [], [], _, _, _, _, e => by cases e; exact ⟨rfl, rfl⟩
  | [], x :: a', _, _, _, h', e => by
    injection e with e1 e2
    exact absurd (by rw [e1]; exact List.mem_cons_self ..) h'
  | x :: a, [], _, _, h, _, e => by
    injection e with e1 e2
    exact absurd (by rw [← e1]; exact List.mem_cons_self ..) h
  | x :: a, y :: a', _, _, h, h', e => by
    injection e with e1 e2
    obtain ⟨h1, h2⟩ := append_cons_inj (fun m => h (List.mem_cons_of_mem _ m)) (fun m => h' (List.mem_cons_of_mem _ m)) e2
    exact ⟨by rw [e1, h1], h2⟩

theorem no_dot {a : List Char} (h : ∀ c ∈ a, isHost c = true) : '.' ∉ a := fun m => by
  have := h _ m; rw [isHost_dot] at this; cases this

/-- With the label `u` read so far, the rest is accepted if the whole is a host. -/
theorem okHost_iff : ∀ {w u : List Char}, (∀ c ∈ u, isHost c = true) →
    (okHost u.isEmpty (u.any (· == '-')) w = true ↔ hostLang (u ++ w))
  | [], u, hu => by
    rw [List.append_nil]
    unfold okHost
    constructor
    · intro h
      rw [Bool.and_eq_true] at h
      refine hostLang_iff.2 (.inl ⟨fun e => by rw [e] at h; simp at h, fun c hc => ?_⟩)
      refine isAlnum_of_host (hu c hc) ?_
      cases hh : (c == '-') with
      | false => rfl
      | true =>
        have : u.any (· == '-') = true := List.any_eq_true.2 ⟨c, hc, hh⟩
        rw [this] at h
        simp at h
    · intro h
      rcases hostLang_iff.1 h with ⟨h1, h2⟩ | ⟨a, b, _, _, _, e⟩
      · rw [Bool.and_eq_true]
        refine ⟨by cases u <;> simp_all, ?_⟩
        cases hh : u.any (· == '-') with
        | false => rfl
        | true =>
          obtain ⟨c, hc, hx⟩ := List.any_eq_true.1 hh
          have := h2 c hc
          rw [eq_of_beq hx, alnum_hyphen] at this
          cases this
      · exact absurd (by rw [e]; simp) (no_dot hu)
  | c :: w, u, hu => by
    unfold okHost
    by_cases hc : c = '.'
    · subst hc
      rw [if_pos rfl, Bool.and_eq_true]
      have ih := okHost_iff (w := w) (u := []) (fun c h => (by cases h))
      rw [List.nil_append] at ih
      have ih : okHost true false w = true ↔ hostLang w := ih
      rw [ih]
      constructor
      · rintro ⟨h1, h2⟩
        exact hostLang_iff.2 (.inr ⟨u, w, (fun e => (by rw [e] at h1; cases h1)), hu, h2, rfl⟩)
      · intro h
        rcases hostLang_iff.1 h with ⟨_, h2⟩ | ⟨a, b, h1, h2, h3, e⟩
        · have := h2 '.' (by simp)
          rw [show isAlnum '.' = false by decide] at this
          cases this
        · obtain ⟨rfl, rfl⟩ := append_cons_inj (no_dot hu) (no_dot h2) e
          refine ⟨?_, h3⟩
          cases u with
          | nil => exact absurd rfl h1
          | cons => rfl
    · rw [if_neg hc, Bool.and_eq_true]
      constructor
      · rintro ⟨h1, h2⟩
        have hu' : ∀ x ∈ u ++ [c], isHost x = true := by
          intro x hx
          rcases List.mem_append.1 hx with hx | hx
          · exact hu x hx
          · rw [List.mem_singleton.1 hx]; exact h1
        have := (okHost_iff (w := w) hu').1 (by rw [List.any_append]; cases u <;> simpa using h2)
        simpa using this
      · intro h
        have h1 : isHost c = true := (hostLang_chars _ (Nat.le_refl _) h c (by simp)).resolve_right hc
        have hu' : ∀ x ∈ u ++ [c], isHost x = true := by
          intro x hx
          rcases List.mem_append.1 hx with hx | hx
          · exact hu x hx
          · rw [List.mem_singleton.1 hx]; exact h1
        have := (okHost_iff (w := w) hu').2 (by simpa using h)
        rw [List.any_append] at this
        exact ⟨h1, by cases u <;> simpa using this⟩

theorem okHost_host {w : List Char} : okHost true false w = true ↔ hostLang w := by
  have := okHost_iff (w := w) (u := []) (fun c h => (by cases h))
  exact this

theorem splitAt_some {c : Char} : ∀ {w a b : List Char}, splitAt c w = some (a, b) ↔ c ∉ a ∧ w = a ++ c :: b
  | [], a, b => ⟨fun h => (by cases h), fun h => by cases a <;> cases h.2⟩
  | x :: w, a, b => by
    unfold splitAt
    by_cases hx : x = c
    · subst hx
      rw [if_pos rfl]
      constructor
      · intro h; cases h; exact ⟨by simp, rfl⟩
      · rintro ⟨h1, h2⟩
        cases a with
        | nil => cases h2; rfl
        | cons y a => injection h2 with e1 e2; exact absurd (by rw [e1]; exact List.mem_cons_self ..) h1
    · rw [if_neg hx]
      constructor
      · intro h
        rw [Option.map_eq_some_iff] at h
        obtain ⟨⟨a', b'⟩, h1, h2⟩ := h
        cases h2
        obtain ⟨h3, h4⟩ := splitAt_some.1 h1
        exact ⟨by simp [h3, Ne.symm hx], by rw [h4]; rfl⟩
      · rintro ⟨h1, h2⟩
        cases a with
        | nil => injection h2 with e1 e2; exact absurd e1 hx
        | cons y a =>
          injection h2 with e1 e2
          subst e1
          rw [splitAt_some.2 ⟨fun m => h1 (List.mem_cons_of_mem _ m), e2⟩]
          rfl

/-- **C69.** `create_client` makes a client for exactly the addresses that match the regular expression, and takes host and port
from it. -/
theorem client_for_matching (e h p : List Char) :
    createClient e = some (h, p) ↔ hostLang h ∧ portLang p ∧ e = "tcp://".toList ++ h ++ ":".toList ++ p := by
  have hs : "tcp://".toList = scheme := rfl
  have hcol : ":".toList = [':'] := rfl
  have hp : ∀ q : List Char, (!q.isEmpty && q.all isDigit) = true ↔ portLang q := by
    intro q
    unfold portLang
    rw [plus_char, Bool.and_eq_true, List.all_eq_true]
    cases q <;> simp
  rw [hs, hcol]
  unfold createClient
  constructor
  · intro hc
    split at hc
    · rename_i ht
      split at hc
      · rename_i a b hsp
        split at hc
        · rename_i hok
          cases hc
          rw [Bool.and_eq_true, hp, okHost_host] at hok
          refine ⟨hok.1, hok.2, ?_⟩
          obtain ⟨_, e2⟩ := splitAt_some.1 hsp
          rw [← List.take_append_drop 6 e, ht, e2]
          simp
        · cases hc
      · cases hc
    · cases hc
  · rintro ⟨h1, h2, rfl⟩
    have hl : scheme.length = 6 := rfl
    have ht : (scheme ++ h ++ [':'] ++ p).take 6 = scheme := by
      rw [List.append_assoc, List.append_assoc, List.take_left' hl]
    have hd : (scheme ++ h ++ [':'] ++ p).drop 6 = h ++ ':' :: p := by
      rw [List.append_assoc, List.append_assoc, List.drop_left' hl]; rfl
    have hn : ':' ∉ h := fun m => by
      rcases hostLang_chars _ (Nat.le_refl _) h1 ':' m with e | e
      · rw [isHost_colon] at e; cases e
      · cases e
    rw [if_pos ht, hd, splitAt_some.2 ⟨hn, rfl⟩]
    show (if _ then _ else _) = _
    rw [if_pos]
    rw [Bool.and_eq_true, hp, okHost_host]
    exact ⟨h1, h2⟩

/-- An address that matches, with a hyphen. -/
example : createClient "tcp://node-1.example.org:9000".toList = some ("node-1.example.org".toList, "9000".toList) := by decide

/-! ## Which host names get a client -/

/-- Digits, and digits and letters. -/
def digits : List Char := "0123456789".toList
def lettersDigits : List Char := digits ++ "abcdefghijklmnopqrstuvwxyz".toList ++ "ABCDEFGHIJKLMNOPQRSTUVWXYZ".toList

/-- A label of a host name by RFC 1123: letters, digits and hyphens, no hyphen at either end. -/
structure Label (l : List Char) : Prop where
  ne : l ≠ []
  chars : ∀ c ∈ l, c ∈ lettersDigits ∨ c = '-'
  first : l.head? ≠ some '-'
  last : l.getLast? ≠ some '-'

/-- Labels with dots between them. -/
def dotted : List (List Char) → List Char → List Char
  | [], l => l
  | a :: as, l => a ++ '.' :: dotted as l

/-- The address `tcp://host:port`. -/
def address (host port : List Char) : List Char := "tcp://".toList ++ host ++ ":".toList ++ port

theorem digits_sound : ∀ c ∈ digits, isDigit c = true := by decide
theorem lettersDigits_sound : ∀ c ∈ lettersDigits, isAlnum c = true := by decide

theorem Label.host {l : List Char} (h : Label l) : ∀ c ∈ l, isHost c = true := fun c hc => by
  rcases h.chars c hc with e | rfl
  · exact isHost_of_alnum (lettersDigits_sound c e)
  · rfl

theorem dotted_lang : ∀ {as : List (List Char)} {l : List Char}, (∀ a ∈ as, Label a) → Label l →
    (hostLang (dotted as l) ↔ '-' ∉ l)
  | [], l, _, hl => by
    show hostLang l ↔ _
    rw [hostLang_iff]
    constructor
    · rintro (⟨_, h⟩ | ⟨a, b, _, _, _, rfl⟩) m
      · have := h _ m; rw [alnum_hyphen] at this; cases this
      · exact no_dot hl.host (by simp)
    · intro h
      refine .inl ⟨hl.ne, fun c hc => ?_⟩
      rcases hl.chars c hc with e | rfl
      · exact lettersDigits_sound c e
      · exact absurd hc h
  | a :: as, l, ha, hl => by
    have hla := ha a (List.mem_cons_self ..)
    rw [← dotted_lang (as := as) (fun x hx => ha x (List.mem_cons_of_mem _ hx)) hl]
    show hostLang (a ++ '.' :: dotted as l) ↔ _
    constructor
    · intro h
      rcases hostLang_iff.1 h with ⟨_, h2⟩ | ⟨a', b, h1, h2, h3, e⟩
      · have := h2 '.' (by simp)
        rw [show isAlnum '.' = false by decide] at this
        cases this
      · obtain ⟨_, rfl⟩ := append_cons_inj (no_dot hla.host) (no_dot h2) e
        exact h3
    · intro h
      exact hostLang_iff.2 (.inr ⟨a, dotted as l, hla.ne, hla.host, h, rfl⟩)

/-- **C69, the hosts that can be reached.** A host name by RFC 1123 gets a client, with that host and port, if its last label has
no hyphen. Missing: the names whose last label has one; `hyphen_refused`. -/
theorem legal_host_partial {as : List (List Char)} {l p : List Char} (ha : ∀ a ∈ as, Label a) (hl : Label l) (hy : '-' ∉ l)
    (hp : p ≠ []) (hd : ∀ c ∈ p, c ∈ digits) :
    createClient (address (dotted as l) p) = some (dotted as l, p) :=
  (client_for_matching _ _ _).2 ⟨(dotted_lang ha hl).2 hy, plus_char.2 ⟨hp, fun c hc => digits_sound c (hd c hc)⟩, rfl⟩

/-- **C69, refuted.** No host name whose last label has a hyphen gets a client, whatever the port. -/
theorem hyphen_refused {as : List (List Char)} {l p : List Char} (ha : ∀ a ∈ as, Label a) (hl : Label l) (hy : '-' ∈ l) :
    createClient (address (dotted as l) p) = none := by
  cases h : createClient (address (dotted as l) p) with
  | none => rfl
  | some q =>
    obtain ⟨q, r⟩ := q
    exfalso
    obtain ⟨h1, h2, h3⟩ := (client_for_matching _ _ _).1 h
    have hnc : ∀ {w : List Char}, hostLang w → ':' ∉ w := fun hw m => by
      rcases hostLang_chars _ (Nat.le_refl _) hw ':' m with e | e
      · rw [isHost_colon] at e; cases e
      · cases e
    have hdc : ∀ {as : List (List Char)}, (∀ a ∈ as, Label a) → ':' ∉ dotted as l := by
      intro as
      induction as with
      | nil => intro _ m; have := hl.host _ m; rw [isHost_colon] at this; cases this
      | cons a as ih =>
        intro ha m
        rcases List.mem_append.1 m with m | m
        · have := (ha a (List.mem_cons_self ..)).host _ m; rw [isHost_colon] at this; cases this
        · rcases List.mem_cons.1 m with m | m
          · cases m
          · exact ih (fun x hx => ha x (List.mem_cons_of_mem _ hx)) m
    unfold address at h3
    rw [List.append_assoc, List.append_assoc, List.append_assoc, List.append_assoc] at h3
    have h4 := List.append_cancel_left h3
    obtain ⟨rfl, _⟩ := append_cons_inj (c := ':') (b := p) (b' := r) (hdc ha) (hnc h1) h4
    exact (dotted_lang ha hl).1 h1 hy

/-- The label `node-1`. -/
theorem label_node1 : Label "node-1".toList := ⟨by decide, by decide, by decide, by decide⟩

/-- A host that can be reached. -/
example : createClient (address (dotted ["node-1".toList] "local".toList) "9000".toList) =
    some (dotted ["node-1".toList] "local".toList, "9000".toList) :=
  legal_host_partial (fun a h => by rw [List.mem_singleton.1 h]; exact label_node1)
    ⟨by decide, by decide, by decide, by decide⟩ (by decide) (by decide) (by decide)
/-- A host that cannot: `tcp://node-1:9000`. -/
example : createClient "tcp://node-1:9000".toList = none :=
  hyphen_refused (as := []) (p := "9000".toList) (fun _ h => (by cases h)) label_node1 (by decide)

end Cs.Rpc
