import Verif.Raft.Generic
import Verif.Raft.Spec

/-!
# Votes and recorded progress along histories
-/

namespace Cs.Raft
open Cs

/-! ## Specification -/

/-- Among the inputs is an answer of `v` that grants the vote of term `t`. -/
def Granted (P : List Input) (t : Nat) (v : Int) : Prop :=
  ∃ ty r, Input.peerResp ty r ∈ P ∧ r.type = .voteResp ∧ r.accepted = true ∧ r.term = t ∧ r.src = v

/-- Among the inputs is a report of `v` that it has everything up to index `n`: an accepted append request or the receipt of
the last block of a snapshot. -/
def Reported (P : List Input) (v : Int) (n : Nat) : Prop :=
  ∃ ty r, Input.peerResp ty r ∈ P ∧ r.accepted = true ∧ r.src = v ∧
    (r.type = .appendResp ∧ n < r.nextIdx ∨ r.type = .snpResp)

/-- No accepted answer to an append request has next index 0. -/
def Input.counts : Input → Prop
  | .peerResp _ r => r.type = .appendResp → r.accepted = true → 0 < r.nextIdx ∧ r.nextIdx < 2 ^ 64
  | _ => True

theorem Granted.mono {P P' : List Input} {t : Nat} {v : Int} (h : Granted P t v) (hp : ∀ x ∈ P, x ∈ P') :
    Granted P' t v := by
  obtain ⟨ty, r, h1, h2⟩ := h
  exact ⟨ty, r, hp _ h1, h2⟩

theorem Reported.mono {P P' : List Input} {n : Nat} {v : Int} (h : Reported P v n) (hp : ∀ x ∈ P, x ∈ P') :
    Reported P' v n := by
  obtain ⟨ty, r, h1, h2⟩ := h
  exact ⟨ty, r, hp _ h1, h2⟩

/-! ## Votes -/

/-- The votes counted are those of distinct servers that granted them in the current term. With `F` (membership never
changes) they are members. -/
def LInv (P : List Input) (F : Prop) (s : Srv) : Prop :=
  ∃ V : List Int, V.Nodup ∧ V.length = s.votesGranted ∧ (∀ v ∈ V, v ∈ s.voted) ∧
    (∀ v ∈ V, v = s.id ∨ Granted P s.term v) ∧ (F → ∀ v ∈ V, v = s.id ∨ v ∈ s.peers.map Peer.id)

/-- A majority of votes. -/
def Elected (P : List Input) (F : Prop) (s : Srv) (t : Nat) : Prop :=
  ∃ V : List Int, V.Nodup ∧ s.peers.length + 1 < 2 * V.length ∧ (∀ v ∈ V, v = s.id ∨ Granted P t v) ∧
    (F → ∀ v ∈ V, v = s.id ∨ v ∈ s.peers.map Peer.id)

/-- What an input does to votes and leadership. -/
structure LQ (P : List Input) (F : Prop) (x : Input) (s s' : Srv) : Prop where
  id : s'.id = s.id
  peers : x.reconfigures = false → s'.peers.map Peer.id = s.peers.map Peer.id
  inv : LInv P F s → LInv P F s'
  lead : LInv P F s → ∃ es, s'.trace = s.trace ++ es ∧ ∀ t, Eff.lead t ∈ es → x.reconfigures = false ∧ Elected P F s t

theorem LQ.refl (P F x) (s : Srv) : LQ P F x s s :=
  ⟨rfl, fun _ => rfl, fun h => h, fun _ => ⟨[], by simp, by simp⟩⟩

theorem Elected.congr {P : List Input} {F : Prop} {s s' : Srv} {t : Nat} (h1 : s'.id = s.id)
    (h2 : s'.peers.map Peer.id = s.peers.map Peer.id) (h : Elected P F s' t) : Elected P F s t := by
  obtain ⟨V, a, b, c, d⟩ := h
  have hl : s'.peers.length = s.peers.length := by
    have := congrArg List.length h2
    simpa using this
  rw [h1] at c d
  rw [h2] at d
  rw [hl] at b
  exact ⟨V, a, b, c, d⟩

theorem LQ.trans {P F x} {a b c : Srv} (h1 : LQ P F x a b) (h2 : LQ P F x b c) : LQ P F x a c := by
  refine ⟨h2.id.trans h1.id, fun h => (h2.peers h).trans (h1.peers h), fun h => h2.inv (h1.inv h), fun h => ?_⟩
  obtain ⟨e1, t1, l1⟩ := h1.lead h
  obtain ⟨e2, t2, l2⟩ := h2.lead (h1.inv h)
  refine ⟨e1 ++ e2, by rw [t2, t1, List.append_assoc], fun t ht => ?_⟩
  rcases List.mem_append.1 ht with ht | ht
  · exact l1 t ht
  · obtain ⟨hx, he⟩ := l2 t ht
    exact ⟨hx, he.congr h1.id (h1.peers hx)⟩

theorem ids_of_keys {ps qs : List Peer} (h : ps.map Peer.key = qs.map Peer.key) : ps.map Peer.id = qs.map Peer.id := by
  have := congrArg (List.map fun k : SrvCfg × Nat => k.1.id) h
  rw [List.map_map, List.map_map] at this
  exact this

theorem find_isSome_mem {ps : List Peer} {i : Int} (h : (ps.find? (·.id == i)).isSome = true) : i ∈ ps.map Peer.id := by
  rw [List.find?_isSome] at h
  obtain ⟨p, hp, he⟩ := h
  exact List.mem_map.2 ⟨p, hp, by simpa using he⟩

/-- A step without election. -/
theorem LQ.same {P F x} {s s' : Srv} (h1 : s'.id = s.id) (h2 : s'.term = s.term) (h3 : s'.votesGranted = s.votesGranted)
    (h4 : s'.voted = s.voted) (h5 : F ∨ x.reconfigures = false → s'.peers.map Peer.id = s.peers.map Peer.id)
    (h6 : ∃ es, s'.trace = s.trace ++ es ∧ ∀ t, Eff.lead t ∉ es) : LQ P F x s s' := by
  refine ⟨h1, fun h => h5 (.inr h), fun h => ?_, fun _ => ?_⟩
  · obtain ⟨V, a, b, c, d, e⟩ := h
    refine ⟨V, a, by rw [h3]; exact b, by rw [h4]; exact c, by rw [h1, h2]; exact d, fun hF => ?_⟩
    rw [h1, h5 (.inl hF)]
    exact e hF
  · obtain ⟨es, a, b⟩ := h6
    exact ⟨es, a, fun t ht => absurd ht (b t)⟩

theorem LQ.prims {P : List Input} {F : Prop} {x : Input} (hP : x ∈ P) (hj : x.isJoin = false)
    (hF : F → x.reconfigures = false) : Prims (LQ P F x) x where
  po := ⟨LQ.refl P F x, LQ.trans⟩
  calm h := .same h.id h.term h.votes h.voted (fun _ => ids_of_keys h.peers) h.trace
  raise _ := ⟨rfl, fun _ => rfl, fun _ => ⟨[], by simp⟩, fun _ => ⟨[], by simp, by simp⟩⟩
  self {s} h1 h2 := by
    refine ⟨rfl, fun _ => rfl, fun _ => ⟨[s.id], by simp⟩, fun _ => ⟨[], by simp, by simp⟩⟩
  count {s ty r b} hx ht hc hn hv hp := by
    refine ⟨rfl, fun _ => rfl, fun h => ?_, fun _ => ⟨[], by simp, by simp⟩⟩
    obtain ⟨V, v1, v2, v3, v4, v5⟩ := h
    cases ha : r.accepted with
    | true =>
      refine ⟨r.src :: V, ?_, by simp [v2], ?_, ?_, fun hF => ?_⟩
      · exact List.nodup_cons.2 ⟨fun h => hv (v3 _ h), v1⟩
      · intro v hm
        rcases List.mem_cons.1 hm with rfl | hm
        · exact List.mem_cons_self
        · exact List.mem_cons_of_mem _ (v3 v hm)
      · intro v hm
        rcases List.mem_cons.1 hm with rfl | hm
        · exact .inr ⟨ty, r, hx ▸ hP, ht, ha, hc, rfl⟩
        · exact v4 v hm
      · intro v hm
        rcases List.mem_cons.1 hm with rfl | hm
        · exact .inr (find_isSome_mem hp)
        · exact v5 hF v hm
    | false =>
      exact ⟨V, v1, by simp [v2], fun v hm => List.mem_cons_of_mem _ (v3 v hm), v4, v5⟩
  complete := .same rfl rfl rfl rfl (fun _ => rfl) ⟨[], by simp, by simp⟩
  lead {s} hx hv := by
    refine ⟨rfl, fun _ => rfl, fun h => h, fun h => ⟨[.lead s.term], rfl, fun t ht => ⟨hx, ?_⟩⟩⟩
    have : t = s.term := by simpa using ht
    rw [this]
    obtain ⟨V, v1, v2, v3, v4, v5⟩ := h
    exact ⟨V, v1, by omega, v4, v5⟩
  acked {s ty r} _ _ _ := by
    refine .same rfl rfl rfl rfl (fun _ => ?_) ⟨[], by simp [Srv.setPeer], by simp⟩
    show (s.peers.map _).map Peer.id = _
    rw [List.map_map]
    refine List.map_congr_left fun p _ => ?_
    show (if p.id == r.src then _ else p : Peer).id = p.id
    split <;> rfl
  snapped {s ty r p snp off} _ _ _ _ _ _ := by
    refine .same rfl rfl rfl rfl (fun _ => ?_) ⟨[], by simp [Srv.setPeer], by simp⟩
    show (s.peers.map _).map Peer.id = _
    rw [List.map_map]
    refine List.map_congr_left fun p _ => ?_
    show (if p.id == r.src then _ else p : Peer).id = p.id
    split <;> rfl
  addPeer hx _ _ _ := .same rfl rfl rfl rfl
    (fun h => absurd hx (by rw [h.elim hF fun h => h]; simp)) ⟨[], by simp, by simp⟩
  join h := by rw [hj] at h; cases h
  filter hx := .same rfl rfl rfl rfl
    (fun h => absurd hx (by rw [h.elim hF fun h => h]; simp)) ⟨[], by simp, by simp⟩

/-! ## Progress of the peers -/

/-- Peers are distinct, and their recorded progress is what they reported. -/
structure MInv (P : List Input) (s : Srv) : Prop where
  nodup : (s.peers.map Peer.id).Nodup
  self : s.id ∉ s.peers.map Peer.id
  matched : ∀ p ∈ s.peers, ∀ n, 0 < n → n ≤ p.matched → Reported P p.id n

/-- What an input does to the recorded progress. -/
def MQ (P : List Input) (s s' : Srv) : Prop := s'.id = s.id ∧ (MInv P s → MInv P s')

theorem MInv.keys {P : List Input} {s s' : Srv} (h1 : s'.id = s.id) (h2 : s'.peers.map Peer.key = s.peers.map Peer.key)
    (h : MInv P s) : MInv P s' := by
  have hi := ids_of_keys h2
  refine ⟨by rw [hi]; exact h.nodup, by rw [hi, h1]; exact h.self, fun p hp n h0 hn => ?_⟩
  have hk : p.key ∈ s.peers.map Peer.key := by rw [← h2]; exact List.mem_map_of_mem hp
  obtain ⟨q, hq, he⟩ := List.mem_map.1 hk
  have e1 : q.cfg = p.cfg := congrArg Prod.fst he
  have e2 : q.matched = p.matched := congrArg Prod.snd he
  have := h.matched q hq n h0 (by rw [e2]; exact hn)
  unfold Peer.id at this ⊢
  rw [← e1]; exact this

theorem MInv.setPeer {P : List Input} {s : Srv} {i : Int} {f : Peer → Peer} (hf : ∀ p, (f p).id = p.id)
    (hm : ∀ p, p.id = i → ∀ n, 0 < n → n ≤ (f p).matched → Reported P i n) (h : MInv P s) :
    MInv P (s.setPeer (.member i) f) := by
  have hi : (s.setPeer (.member i) f).peers.map Peer.id = s.peers.map Peer.id := by
    show (s.peers.map _).map Peer.id = _
    rw [List.map_map]
    refine List.map_congr_left fun p _ => ?_
    show (if p.id == i then f p else p).id = p.id
    split
    · exact hf p
    · rfl
  refine ⟨by rw [hi]; exact h.nodup, by rw [hi]; exact h.self, fun p hp n h0 hn => ?_⟩
  obtain ⟨q, hq, he⟩ := List.mem_map.1 hp
  by_cases hqi : q.id = i
  · rw [if_pos (by simp [hqi])] at he
    rw [← he] at hn ⊢
    rw [hf q, hqi]
    exact hm q hqi n h0 hn
  · rw [if_neg (by simp [hqi])] at he
    rw [← he] at hn ⊢
    exact h.matched q hq n h0 hn

theorem MQ.prims {P : List Input} {x : Input} (hP : x ∈ P) (hc : x.counts) : Prims (MQ P) x where
  po := ⟨fun _ => ⟨rfl, fun h => h⟩, fun h1 h2 => ⟨h2.1.trans h1.1, fun h => h2.2 (h1.2 h)⟩⟩
  calm h := ⟨h.id, MInv.keys h.id h.peers⟩
  raise _ := ⟨rfl, MInv.keys rfl rfl⟩
  self _ _ := ⟨rfl, MInv.keys rfl rfl⟩
  count _ _ _ _ _ _ := ⟨rfl, MInv.keys rfl rfl⟩
  complete := ⟨rfl, MInv.keys rfl rfl⟩
  lead _ _ := ⟨rfl, MInv.keys rfl rfl⟩
  acked {s ty r} hx ht ha := by
    refine ⟨rfl, MInv.setPeer (fun p => rfl) fun p hp n h0 hn => ?_⟩
    rw [hx] at hc
    obtain ⟨c1, c2⟩ := hc ht ha
    have e : subU64 r.nextIdx 1 = r.nextIdx - 1 := by unfold subU64; omega
    have hn' : n ≤ subU64 r.nextIdx 1 := hn
    rw [e] at hn'
    exact ⟨ty, r, hx ▸ hP, ha, rfl, .inl ⟨ht, by omega⟩⟩
  snapped {s ty r p snp off} hx ht ha _ _ _ :=
    ⟨rfl, MInv.setPeer (fun p => rfl) fun p hp n h0 hn => ⟨ty, r, hx ▸ hP, ha, rfl, .inr ht⟩⟩
  addPeer {s p} hx hm hn hi := by
    refine ⟨rfl, fun h => ⟨?_, ?_, ?_⟩⟩
    · show ((s.peers ++ [p]).map Peer.id).Nodup
      rw [List.map_append, List.nodup_append]
      refine ⟨h.nodup, by simp, ?_⟩
      intro a ha b hb
      have hb' : b = p.id := by simpa using hb
      rw [hb']
      rintro rfl
      obtain ⟨q, hq, he⟩ := List.mem_map.1 ha
      have := List.find?_eq_none.1 hn q hq
      simp [he] at this
    · show s.id ∉ (s.peers ++ [p]).map Peer.id
      rw [List.map_append, List.mem_append]
      rintro (h' | h')
      · exact h.self h'
      · exact hi (List.mem_singleton.1 h').symm
    · intro q hq n h0 hn
      rcases List.mem_append.1 hq with hq | hq
      · exact h.matched q hq n h0 hn
      · rw [List.mem_singleton.1 hq, hm] at hn
        omega
  join _ := ⟨rfl, MInv.keys rfl rfl⟩
  filter {s f} _ := by
    refine ⟨rfl, fun h => ⟨?_, ?_, fun p hp => h.matched p (List.mem_filter.1 hp).1⟩⟩
    · exact h.nodup.sublist (List.filter_sublist.map _)
    · intro hm
      exact h.self ((List.filter_sublist.map _).subset hm)

/-- Peers stay distinct, whatever the inputs. -/
def PQ (s s' : Srv) : Prop :=
  (s.peers.map Peer.id).Nodup ∧ s.id ∉ s.peers.map Peer.id → (s'.peers.map Peer.id).Nodup ∧ s'.id ∉ s'.peers.map Peer.id

theorem PQ.same {s s' : Srv} (h1 : s'.id = s.id) (h2 : s'.peers.map Peer.id = s.peers.map Peer.id) : PQ s s' := by
  intro h
  rw [h1, h2]
  exact h

theorem PQ.prims {x : Input} : Prims PQ x where
  po := ⟨fun _ h => h, fun h1 h2 h => h2 (h1 h)⟩
  calm h := .same h.id (ids_of_keys h.peers)
  raise _ := fun h => h
  self _ _ := fun h => h
  count _ _ _ _ _ _ := fun h => h
  complete := fun h => h
  lead _ _ := fun h => h
  acked {s ty r} hx ht ha := by
    refine .same rfl ?_
    show (s.peers.map _).map Peer.id = _
    rw [List.map_map]
    refine List.map_congr_left fun p _ => ?_
    show (if p.id == r.src then _ else p : Peer).id = p.id
    split <;> rfl
  snapped {s ty r p snp off} _ _ _ _ _ _ := by
    refine .same rfl ?_
    show (s.peers.map _).map Peer.id = _
    rw [List.map_map]
    refine List.map_congr_left fun p _ => ?_
    show (if p.id == r.src then _ else p : Peer).id = p.id
    split <;> rfl
  addPeer {s p} hx hm hn hi := by
    intro h
    refine ⟨?_, ?_⟩
    · show ((s.peers ++ [p]).map Peer.id).Nodup
      rw [List.map_append, List.nodup_append]
      refine ⟨h.1, by simp, ?_⟩
      intro a ha b hb
      have hb' : b = p.id := by simpa using hb
      rw [hb']
      rintro rfl
      obtain ⟨q, hq, he⟩ := List.mem_map.1 ha
      have := List.find?_eq_none.1 hn q hq
      simp [he] at this
    · show s.id ∉ (s.peers ++ [p]).map Peer.id
      rw [List.map_append, List.mem_append]
      rintro (h' | h')
      · exact h.2 h'
      · exact hi (List.mem_singleton.1 h').symm
  join _ := fun h => h
  filter {s f} _ := fun h => ⟨h.1.sublist (List.filter_sublist.map _), fun hm => h.2 ((List.filter_sublist.map _).subset hm)⟩

theorem bootPeer_inv (i : Int) (pr : Params) : ∀ (cs : List SrvCfg) (ps : List Peer), (ps.map Peer.id).Nodup →
    i ∉ ps.map Peer.id → (∀ p ∈ ps, p.matched = 0) →
    ((cs.foldl (bootPeer i pr) ps).map Peer.id).Nodup ∧ i ∉ (cs.foldl (bootPeer i pr) ps).map Peer.id ∧
      ∀ p ∈ cs.foldl (bootPeer i pr) ps, p.matched = 0
  | [], ps, h1, h2, h3 => ⟨h1, h2, h3⟩
  | c :: cs, ps, h1, h2, h3 => by
    show ((cs.foldl (bootPeer i pr) (bootPeer i pr ps c)).map Peer.id).Nodup ∧ _
    have : ((bootPeer i pr ps c).map Peer.id).Nodup ∧ i ∉ (bootPeer i pr ps c).map Peer.id ∧
        ∀ p ∈ bootPeer i pr ps c, p.matched = 0 := by
      unfold bootPeer
      split
      · exact ⟨h1, h2, h3⟩
      · rename_i hc
        rw [not_or] at hc
        refine ⟨?_, ?_, ?_⟩
        · rw [List.map_append, List.nodup_append]
          refine ⟨h1, by simp, ?_⟩
          intro a ha b hb
          have hb' : b = c.id := by simpa [Peer.id] using hb
          rw [hb']
          rintro rfl
          obtain ⟨q, hq, he⟩ := List.mem_map.1 ha
          exact hc.2 (List.find?_isSome.2 ⟨q, hq, by simp [he]⟩)
        · rw [List.map_append, List.mem_append]
          rintro (h' | h')
          · exact h2 h'
          · exact hc.1 (List.mem_singleton.1 h').symm
        · intro p hp
          rcases List.mem_append.1 hp with hp | hp
          · exact h3 p hp
          · rw [List.mem_singleton.1 hp]
    exact bootPeer_inv i pr cs _ this.1 this.2.1 this.2.2

theorem MInv.boot (P : List Input) (c : Setup) (d : Disk) : MInv P (boot c.id c.params c.env d) := by
  obtain ⟨h1, h2, h3⟩ := bootPeer_inv c.id c.params d.config.servers [] (by simp) (by simp) (by simp)
  exact ⟨h1, h2, fun p hp n h0 hn => by rw [h3 p hp] at hn; omega⟩

theorem MInv.mono {P P' : List Input} {s : Srv} (hp : ∀ x ∈ P, x ∈ P') (h : MInv P s) : MInv P' s :=
  ⟨h.nodup, h.self, fun p hm n h0 hn => (h.matched p hm n h0 hn).mono hp⟩

theorem LInv.boot (P : List Input) (F : Prop) (c : Setup) (d : Disk) : LInv P F (boot c.id c.params c.env d) :=
  ⟨[], by simp [Cs.Raft.boot]⟩

theorem LInv.mono {P P' : List Input} {F F' : Prop} {s : Srv} (hp : ∀ x ∈ P, x ∈ P') (hF : F' → F) (h : LInv P F s) :
    LInv P' F' s := by
  obtain ⟨V, a, b, c, d, e⟩ := h
  exact ⟨V, a, b, c, fun v hv => (d v hv).imp id fun g => g.mono hp, fun hf => e (hF hf)⟩

/-! ## Along histories -/

/-- The invariant of a running server along a history. -/
theorem Hist.inv {c : Setup} {I : List Input → Srv → Prop} {n : Node} (h0 : n.up = none)
    (hboot : ∀ P d, I P (Cs.Raft.boot c.id c.params c.env d))
    (hstep : ∀ P s x, (I P s) → I (P ++ [x]) (x.run { s with trace := [] }).2) {xs : List Input} {fx : List Eff} {n' : Node}
    (h : Hist c n xs fx n') : ∀ s, n'.up = some s → I xs s := by
  induction h with
  | nil => intro s hs; rw [h0] at hs; cases hs
  | @step n1 n2 xs fx es x _ hs ih =>
    intro s2 hu
    cases hs with
    | @run d s s' x hr => cases hu; have := hstep xs s x (ih _ rfl); rw [hr] at this; exact this
    | @survive d s s' x hr => cases hu; have := hstep xs s x (ih _ rfl); rw [hr] at this; exact this
    | crash _ => cases hu
    | boot => cases hu; exact hboot _ _

/-- The same with a condition on the inputs. -/
theorem Hist.inv' {c : Setup} {C : Input → Prop} {I : List Input → Srv → Prop} {n : Node} (h0 : n.up = none)
    (hboot : ∀ P d, I P (Cs.Raft.boot c.id c.params c.env d))
    (hstep : ∀ P s x, C x → I P s → I (P ++ [x]) (x.run { s with trace := [] }).2) {xs : List Input} {fx : List Eff}
    {n' : Node} (h : Hist c n xs fx n') (hC : ∀ x ∈ xs, C x) : ∀ s, n'.up = some s → I xs s := by
  have := Hist.inv (c := c) (I := fun P s => (∀ x ∈ P, C x) → I P s) h0 (fun P d _ => hboot P d)
    (fun P s x h1 h2 => hstep P s x (h2 x (by simp)) (h1 fun y hy => h2 y (List.mem_append_left _ hy))) h
  exact fun s hs => this s hs hC

theorem Hist.minv {c : Setup} {cfg : Config} {xs : List Input} {fx : List Eff} {n : Node}
    (h : Hist c (Node.fresh cfg) xs fx n) (hc : ∀ x ∈ xs, x.counts) (s : Srv) (hs : n.up = some s) :
    MInv xs s ∧ s.id = c.id :=
  Hist.inv' (I := fun P s => MInv P s ∧ s.id = c.id) rfl (fun P d => ⟨MInv.boot P c d, rfl⟩)
    (fun P s x hx hi => by
      have hq := (MQ.prims (P := P ++ [x]) (x := x) (by simp) hx)
      have hr := @gq_run (MQ (P ++ [x])) x hq { s with trace := [] }
      have hm : MInv (P ++ [x]) { s with trace := [] } :=
        MInv.keys (s := s) rfl rfl (hi.1.mono fun y hy => List.mem_append_left _ hy)
      exact ⟨hr.2 hm, hr.1.trans hi.2⟩) h hc s hs

theorem Hist.linv {c : Setup} {cfg : Config} {xs : List Input} {fx : List Eff} {n : Node}
    (h : Hist c (Node.fresh cfg) xs fx n) (hj : ∀ x ∈ xs, x.isJoin = false) (s : Srv) (hs : n.up = some s) :
    LInv xs (∀ x ∈ xs, x.reconfigures = false) s ∧ s.id = c.id :=
  Hist.inv' (C := fun x => x.isJoin = false)
    (I := fun P s => LInv P (∀ x ∈ P, x.reconfigures = false) s ∧ s.id = c.id) rfl
    (fun P d => ⟨LInv.boot P _ c d, rfl⟩)
    (fun P s x hx hi => by
      have hq := LQ.prims (P := P ++ [x]) (F := ∀ y ∈ P ++ [x], y.reconfigures = false) (x := x) (by simp) hx
        (fun h => h x (by simp))
      have hr := @gq_run (LQ (P ++ [x]) _ x) x hq { s with trace := [] }
      have hm : LInv (P ++ [x]) (∀ y ∈ P ++ [x], y.reconfigures = false) { s with trace := [] } :=
        hi.1.mono (fun y hy => List.mem_append_left _ hy) (fun h y hy => h y (List.mem_append_left _ hy))
      exact ⟨hr.inv hm, hr.id.trans hi.2⟩) h hj s hs

end Cs.Raft
