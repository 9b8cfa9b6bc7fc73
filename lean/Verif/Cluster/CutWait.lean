import Verif.Cluster.CutCommit
import Verif.Raft.Wait

/-!
# A snapshot is finished while the entry it ends with is in the log

In careful executions this follows from the server waiting for the snapshot.
-/

namespace Cs.Raft.Cut
open Cs Cs.Raft

variable {C : Cluster} {w w' : World} {ps : Int → PS} {g : Ghost} {i : Int}

theorem Path.qc_le {cs : List SrvCfg} {H : History} {es : List Eff} {c c' : PS} (p : Path cs H i c es c') : c.qc ≤ c'.qc := by
  induction p with
  | nil => exact Nat.le_refl _
  | act a _ _ ih =>
    refine Nat.le_trans ?_ ih
    cases a with
    | advance h => exact Nat.le_of_lt h
    | follow h => exact Nat.le_of_lt h
    | _ => exact Nat.le_refl _
  | quiet _ h _ ih => rw [← h]; exact ih

theorem snapsAsked_snoc {E : List Ev} {i k : Int} {x : Option Input} {es : List Eff} :
    snapsAsked (E ++ es.map fun e => ⟨i, x, e⟩) k = snapsAsked E k ++ if i = k then created es else [] := by
  unfold snapsAsked
  rw [List.filterMap_append, List.filterMap_map]
  congr 1
  split
  · rename_i h
    unfold created
    congr 1
    funext e
    cases e <;> simp [h]
  · rename_i h
    rw [List.filterMap_eq_nil_iff]
    intro e _
    cases e <;> simp [h]

/-- The snapshot a server waits for ends with an entry that is not compacted, and up to which everything is committed. -/
def WaitOk (C : Cluster) (w : World) : Prop :=
  ∀ i ∈ C.ids, ∀ s, (w.node i).up = some s → s.snpInProgress = true →
    ∃ q, (snapsAsked w.evs i).getLast? = some q ∧ s.log.start ≤ q.lastIdx ∧ q.lastIdx ≤ s.quickCommit

theorem Done.length {T n : Nat} {l : List Entry} (hd : Done C.ids (hist w) g T l n) :
    n ≤ l.length := by
  rcases hd with rfl | ⟨t, n', h1, h2, h3, h4⟩
  · exact Nat.zero_le _
  · have := h4.length_le
    have := h3.1.length
    rw [List.length_take] at *
    omega

/-- The entry is in the log. -/
theorem in_log (h : Inv C w ps g) (hk : CommOk C.ids ps (hist w) g) (hi : i ∈ C.ids) (hw : WaitOk C w) {s : Srv}
    (hs : (w.node i).up = some s) {snp : Snap} {ok : Bool} (ha : (snapsAsked w.evs i).getLast? = some snp)
    (hp : s.snpInProgress = true) : InLog s (.snapDone snp ok) := by
  cases ok with
  | false => trivial
  | true =>
    obtain ⟨q, q1, q2, q3⟩ := hw i hi s hs hp
    rw [ha] at q1
    cases q1
    obtain ⟨pre, hn⟩ := h.linked.nodes i hi
    obtain ⟨gd, ab⟩ := hn.up s hs
    have hd := Done.length (hk.srv i)
    rw [← ab] at hd
    show (s.log.get? snp.lastIdx).isSome = true
    have hst := gd.start
    have hl : s.quickCommit ≤ pre.length + s.log.ents.length := by
      have : (abs pre s).log.length = pre.length + s.log.ents.length := List.length_append
      rw [← this]; exact hd
    unfold Log.get?
    rw [if_neg (by omega), List.getElem?_eq_getElem (by omega)]
    rfl

theorem snapDone_wait {s s' : Srv} {snp : Snap} {ok : Bool} {res : Except Fault Unit}
    (h : (Input.snapDone snp ok).run s = (res, s')) :
    s'.snpInProgress = false ∨ (∃ fx, s'.trace = s.trace ++ fx ∧ created fx = []) ∧ s'.log = s.log ∧
      s'.quickCommit = s.quickCommit := by
  cases ok with
  | false => cases h; exact .inl rfl
  | true =>
    by_cases hr : s.params.reserved < snp.lastIdx
    · rw [run_snapDone_some hr, run_bind] at h
      rcases logCompact_cases (snp.lastIdx - s.params.reserved) (s.snapped snp) with ⟨_, h1⟩ | ⟨_, _, h1⟩ | ⟨_, _, h1⟩
      · rw [h1] at h
        cases h
        exact .inr ⟨⟨_, rfl, rfl⟩, rfl, rfl⟩
      · rw [h1] at h
        cases h
        exact .inl rfl
      · rw [h1] at h
        cases h
        exact .inl rfl
    · rw [run_snapDone_none hr] at h
      cases h
      exact .inl rfl

theorem wait_step (hC : C.OkS) (h : Inv C w ps g) (hw : WaitOk C w) (st : C.TStep w w') : WaitOk C w' := by
  cases st with
  | @mk i x es n hi hx hwt st =>
    intro k hk s2 hs2 hp2
    simp only [] at hs2 ⊢
    rw [snapsAsked_snoc]
    by_cases hki : k = i
    · subst hki
      rw [if_pos rfl] at hs2 ⊢
      obtain ⟨pre, hn⟩ := h.linked.nodes k hk
      have hw' := hw k hk
      rcases hnode : w.node k with ⟨d, up⟩
      rw [hnode] at hn hwt st hw'
      have whole : ∀ (s : Srv) (y : Input) (r : Except Fault PUnit), up = some s → x = some y →
          y.run { s with trace := [] } = (r, s2) → (r = .ok ⟨⟩ ∨ r = .error .thrown) → es = s2.trace →
          ∃ q, (snapsAsked w.evs k ++ created es).getLast? = some q ∧ s2.log.start ≤ q.lastIdx ∧ q.lastIdx ≤ s2.quickCommit := by
        intro s y r hup hxy hr hor hes
        subst hup; subst hxy; subst hes
        obtain ⟨gd, ab⟩ := hn.up s rfl
        have hm : Member C.servers k := ⟨hC.nodup, hi, fun he => hC.named (he ▸ hi)⟩
        cases hx y rfl with
        | plain hd hns =>
          have ha := h.linked.allowed hC h.safe.logs.votes hd hns
          obtain ⟨g1, p, _⟩ := input_path (d := d) (by rw [ab]; exact hn.disk) gd ha
          rw [hr] at g1 p
          have e1 : s2.log.start = s.log.start := by rw [g1.start, gd.start]
          have e2 : s.quickCommit ≤ s2.quickCommit := Path.qc_le p
          have keep : created s2.trace = [] → s.snpInProgress = true → ∃ q, (snapsAsked w.evs k ++ created s2.trace).getLast? = some q ∧
              s2.log.start ≤ q.lastIdx ∧ q.lastIdx ≤ s2.quickCommit := by
            intro hc hp
            obtain ⟨q, q1, q2, q3⟩ := hw' s rfl hp
            rw [hc, List.append_nil]
            exact ⟨q, q1, by omega, by omega⟩
          by_cases hap : y = .apply
          · subst hap
            obtain ⟨fx, f1, hf⟩ := apply_asks hr hor
            have f1 : s2.trace = fx := f1
            rcases hf with ⟨c1, c2⟩ | ⟨q, c1, c2, c3⟩
            · exact keep (by rw [f1]; exact c1) (c2 hp2)
            · refine ⟨q, by rw [f1, c1]; simp, ?_, ?_⟩
              · rw [e1]; exact c2
              · exact Nat.le_trans c3 e2
          · have hsd : ∀ q ok, y ≠ .snapDone q ok := by
              intro q ok he
              rw [he] at hd
              cases hd
            obtain ⟨fx, f1, c1, c2⟩ := np_run hsd hap { s with trace := [] }
            rw [hr] at f1 c2
            have f1 : s2.trace = fx := f1
            exact keep (by rw [f1]; exact c1) (by rw [← hp2]; exact c2.symm)
        | @snapped snp ok hl =>
          have hp : s.snpInProgress = true := hwt s _ rfl rfl
          rcases snapDone_wait hr with hf | ⟨⟨fx, f1, c1⟩, f2, f3⟩
          · rw [hf] at hp2; cases hp2
          · have f1 : s2.trace = fx := f1
            obtain ⟨q, q1, q2, q3⟩ := hw' s rfl hp
            rw [f1, c1, List.append_nil, f2, f3]
            exact ⟨q, q1, q2, q3⟩
      cases st with
      | run hr => cases hs2; exact whole _ _ _ rfl rfl hr (.inl rfl) rfl
      | survive hr => cases hs2; exact whole _ _ _ rfl rfl hr (.inr rfl) rfl
      | crash => cases hs2
      | boot => cases hs2; cases hp2
    · rw [if_neg hki] at hs2
      rw [if_neg (fun e => hki e.symm), List.append_nil]
      exact hw k hk s2 hs2 hp2

theorem tstep_evs (st : C.TStep w w') : ∃ E, w'.evs = w.evs ++ E := by
  cases st with
  | mk => exact ⟨_, rfl⟩

theorem asked_mem {E : List Ev} {q : Snap} (h : (snapsAsked E i).getLast? = some q) :
    ∃ ev ∈ E, ev.node = i ∧ ev.eff = .createSnp q := by
  have hm := List.mem_of_getLast? h
  unfold snapsAsked at hm
  obtain ⟨ev, h1, h2⟩ := List.mem_filterMap.1 hm
  refine ⟨ev, h1, ?_⟩
  split at h2
  · rename_i q' he
    split at h2
    · rename_i hn
      cases h2
      exact ⟨hn, he⟩
    · cases h2
  · cases h2

/-- Careful executions in which servers are told only about snapshots they wait for. -/
theorem TReach.sreach (hC : C.OkS) (h : C.TReach w) (hcare : Careful C w.evs) : C.SReach w ∧ WaitOk C w := by
  induction h with
  | init =>
    refine ⟨.refl, fun i _ s hs => ?_⟩
    cases hs
  | @step w w' _ st ih =>
    obtain ⟨E, he⟩ := tstep_evs st
    obtain ⟨hr, hw⟩ := ih (Careful.prefix (he ▸ hcare))
    obtain ⟨ps, g, h1, h2⟩ := comm_reach hC hr (Careful.prefix (he ▸ hcare))
    refine ⟨.step hr ?_, wait_step hC h1 hw st⟩
    cases st with
    | @mk i x es n hi hx hwt st =>
      refine .mk hi (fun y hy => ?_) (fun s y hs hy => ?_) st
      · cases hx y hy with
        | plain a b => exact .plain a b
        | snapped a =>
          obtain ⟨ev, e1, e2, e3⟩ := asked_mem a
          exact .snapped e1 e2 e3
      · cases hx y hy with
        | plain a b =>
          cases y with
          | snapDone => cases a
          | _ => trivial
        | snapped a => exact in_log h1 h2 hi hw hs a (hwt s _ hs hy)

end Cs.Raft.Cut
