import Verif.Cluster.CutSpec
import Verif.Cluster.Wide
import Verif.Cluster.Witness

/-!
# Concrete executions of a cluster that compacts its logs
-/

namespace Cs.Raft
open Cs

/-- Not a snapshot request. -/
def Input.noSnp : Input → Bool
  | .req m => decide (m.type ≠ .snpReq)
  | _ => true

/-- `InLog`. -/
def inLogB (s : Srv) : Input → Bool
  | .snapDone snp true => (s.log.get? snp.lastIdx).isSome
  | _ => true

theorem inLogB_sound {s : Srv} {x : Input} (h : inLogB s x = true) : InLog s x := by
  cases x with
  | snapDone q ok =>
    cases ok with
    | true => exact h
    | false => trivial
  | _ => trivial

/-- What the move may give the server. -/
def Node.takes (n : Node) : Option Input → Bool
  | some x => x.noSnp && match n.up with
    | some s => inLogB s x
    | none => true
  | none => true

/-- The server waits for the snapshot. -/
def World.waits (w : World) (i : Int) : Option Input → Bool
  | some (.snapDone snp _) => decide ((snapsAsked w.evs i).getLast? = some snp) && match (w.node i).up with
    | some s => s.snpInProgress
    | none => true
  | _ => true

/-- One move. -/
def World.smove (C : Cluster) (w : World) (p : WPlay) : Option World :=
  match p.input w.evs with
  | some (i, x, stop) =>
    if i ∈ C.ids ∧ (w.node i).takes x = true ∧ w.waits i x = true then
      match (w.node i).go (C.setup i) x stop with
      | some (es, n) => some ⟨fun k => if k = i then n else w.node k, w.evs ++ es.map fun e => ⟨i, x, e⟩⟩
      | none => none
    else none
  | none => none

/-- A script. -/
def World.splay (C : Cluster) (w : World) : List WPlay → Option World
  | [] => some w
  | p :: ps => match w.smove C p with
    | some w' => w'.splay C ps
    | none => none

theorem World.smove_step {C : Cluster} {w w' : World} {p : WPlay} (h : w.smove C p = some w') : C.SStep w w' := by
  unfold World.smove at h
  split at h
  · rename_i i x stop hi
    split at h
    · rename_i hm
      split at h
      · rename_i es n hg
        cases h
        refine .mk hm.1 (fun y hy => ?_) (fun s y hs hy => ?_) (Node.go_step hg)
        · have ht := hm.2.1
          rw [hy] at ht
          have hn : y.noSnp = true := (Bool.and_eq_true _ _ ▸ ht).1
          cases p with
          | plain p =>
            refine .plain (Play.deliver hi y hy) fun m he => ?_
            rw [he] at hn
            exact of_decide_eq_true hn
          | snapped k ok =>
            subst hy
            simp only [WPlay.input] at hi
            split at hi
            · rename_i he
              cases hi
              exact .snapped (List.mem_of_getElem? he) rfl rfl
            · cases hi
        · have ht := hm.2.1
          rw [hy] at ht
          have hn := (Bool.and_eq_true _ _ ▸ ht).2
          rw [hs] at hn
          exact inLogB_sound hn
      · cases h
    · cases h
  · cases h

/-- The input of a move is one the server may get, and it waits for the snapshot it is told about. -/
theorem World.smove_input {w : World} {p : WPlay} {i : Int} {x : Option Input} {stop : Option Nat}
    (hi : p.input w.evs = some (i, x, stop)) (ht : (w.node i).takes x = true) (hv : w.waits i x = true) :
    (∀ y, x = some y → DeliverT w.evs i y) ∧ ∀ s y, (w.node i).up = some s → x = some y → WaitsFor s y := by
  refine ⟨fun y hy => ?_, fun s y hs hy => ?_⟩
  · rw [hy] at ht hv
    have hn : y.noSnp = true := (Bool.and_eq_true _ _ ▸ ht).1
    cases p with
    | plain p =>
      refine .plain (Play.deliver hi y hy) fun m he => ?_
      rw [he] at hn
      exact of_decide_eq_true hn
    | snapped k ok =>
      subst hy
      simp only [WPlay.input] at hi
      split at hi
      · cases hi
        have hv : (decide _ && _) = true := hv
        rw [Bool.and_eq_true] at hv
        exact .snapped (of_decide_eq_true hv.1)
      · cases hi
  · rw [hy] at hv
    cases y with
    | snapDone q ok =>
      have hv : (decide _ && _) = true := hv
      rw [Bool.and_eq_true, hs] at hv
      exact hv.2
    | _ => trivial

theorem World.smove_tstep {C : Cluster} {w w' : World} {p : WPlay} (h : w.smove C p = some w') : C.TStep w w' := by
  unfold World.smove at h
  split at h
  · rename_i i x stop hi
    split at h
    · rename_i hm
      split at h
      · rename_i es n hg
        cases h
        obtain ⟨h1, h2⟩ := World.smove_input hi hm.2.1 hm.2.2
        exact .mk hm.1 h1 h2 (Node.go_step hg)
      · cases h
    · cases h
  · cases h

theorem World.splay_reach {C : Cluster} : ∀ {ps : List WPlay} {w w' : World}, C.TReach w →
    w.splay C ps = some w' → C.TReach w'
  | [], w, w', h, hp => by cases hp; exact h
  | p :: ps, w, w', h, hp => by
    unfold World.splay at hp
    split at hp
    · rename_i w1 h1
      exact World.splay_reach (.step h (World.smove_tstep h1)) hp
    · cases hp

/-- The script gives an execution in which servers wait for the snapshots they are told about. -/
theorem World.twitness {C : Cluster} (ps : List WPlay) (P : World → Bool)
    (h : (match C.init.splay C ps with | some w => P w | none => false) = true) : ∃ w, C.TReach w ∧ P w = true := by
  split at h
  · rename_i w hw
    exact ⟨w, World.splay_reach .init hw, h⟩
  · cases h

/-- A move that satisfies `f`. -/
def World.smoveIf (C : Cluster) (f : Int → Srv → Input → List Eff → Bool) (w : World) (p : WPlay) : Option World :=
  match p.input w.evs with
  | some (i, x, stop) =>
    if i ∈ C.ids ∧ (w.node i).takes x = true ∧ w.waits i x = true then
      match (w.node i).go (C.setup i) x stop with
      | some (es, n) =>
        if passes f i es (w.node i).up x = true then
          some ⟨fun k => if k = i then n else w.node k, w.evs ++ es.map fun e => ⟨i, x, e⟩⟩
        else none
      | none => none
    else none
  | none => none

/-- A script all moves of which satisfy `f`. -/
def World.splayIf (C : Cluster) (f : Int → Srv → Input → List Eff → Bool) (w : World) : List WPlay → Option World
  | [] => some w
  | p :: ps => match w.smoveIf C f p with
    | some w' => w'.splayIf C f ps
    | none => none

theorem World.smoveIf_only {C : Cluster} {f : Int → Srv → Input → List Eff → Bool} {P : Int → Srv → Input → List Eff → Prop}
    (hf : ∀ i s x es, f i s x es = true → P i s x es) {w w' : World} {p : WPlay} (h : C.TOnly P w)
    (hm : w.smoveIf C f p = some w') : C.TOnly P w' := by
  unfold World.smoveIf at hm
  rcases hi : p.input w.evs with _ | ⟨i, x, k⟩
  · rw [hi] at hm; cases hm
  rw [hi] at hm
  simp only [] at hm
  by_cases hc : i ∈ C.ids ∧ (w.node i).takes x = true ∧ w.waits i x = true
  · rw [if_pos hc] at hm
    rcases hg : (w.node i).go (C.setup i) x k with _ | ⟨es, n⟩
    · rw [hg] at hm; cases hm
    rw [hg] at hm
    simp only [] at hm
    split at hm
    · rename_i hb
      cases hm
      obtain ⟨h1, h2⟩ := World.smove_input hi hc.2.1 hc.2.2
      refine .step h hc.1 h1 h2 (fun s y hs hy => ?_) (Node.go_step hg)
      rw [hs, hy] at hb
      exact hf i s y es hb
    · cases hm
  · rw [if_neg hc] at hm; cases hm

theorem World.splayIf_only {C : Cluster} {f : Int → Srv → Input → List Eff → Bool} {P : Int → Srv → Input → List Eff → Prop}
    (hf : ∀ i s x es, f i s x es = true → P i s x es) : ∀ (ps : List WPlay) {w w' : World}, C.TOnly P w →
    w.splayIf C f ps = some w' → C.TOnly P w'
  | [], w, w', h, hp => by cases hp; exact h
  | p :: ps, w, w', h, hp => by
    unfold World.splayIf at hp
    split at hp
    · rename_i w1 h1
      exact splayIf_only hf ps (World.smoveIf_only hf h h1) hp
    · cases hp

/-- The end of such a script, with a check. -/
theorem World.tonly {C : Cluster} {P : Int → Srv → Input → List Eff → Prop} (f : Int → Srv → Input → List Eff → Bool)
    (hf : ∀ i s x es, f i s x es = true → P i s x es) (ps : List WPlay) (g : World → Bool)
    (h : (match C.init.splayIf C f ps with | some w => g w | none => false) = true) : ∃ w, C.TOnly P w ∧ g w = true := by
  rcases hp : C.init.splayIf C f ps with _ | w
  · rw [hp] at h; cases h
  · rw [hp] at h; exact ⟨w, World.splayIf_only hf ps .init hp, h⟩

theorem World.splay_run {C : Cluster} {w0 : World} : ∀ {ps : List WPlay} {w w' : World}, C.SRun w0 w →
    w.splay C ps = some w' → C.SRun w0 w'
  | [], w, w', h, hp => by cases hp; exact h
  | p :: ps, w, w', h, hp => by
    unfold World.splay at hp
    split at hp
    · rename_i w1 h1
      exact World.splay_run (.step h (World.smove_step h1)) hp
    · cases hp

/-- Two states, one after the other. -/
def World.scheck2 (C : Cluster) (ps qs : List WPlay) (P : World → World → Bool) : Bool :=
  match C.init.splay C ps with
  | some w => match w.splay C qs with
    | some w' => P w w'
    | none => false
  | none => false

theorem World.switness2 {C : Cluster} (ps qs : List WPlay) (P : World → World → Bool) (h : World.scheck2 C ps qs P = true) :
    ∃ w w', C.SReach w ∧ C.SRun w w' ∧ P w w' = true := by
  unfold World.scheck2 at h
  split at h
  · rename_i w hw
    split at h
    · rename_i w' hw'
      exact ⟨w, w', World.splay_run .refl hw, World.splay_run .refl hw', h⟩
    · cases h
  · cases h

theorem World.switness {C : Cluster} (ps : List WPlay) (P : World → Bool)
    (h : World.scheck2 C [] ps (fun _ w => P w) = true) : ∃ w, C.SReach w ∧ P w = true := by
  obtain ⟨w, w', h1, h2, h3⟩ := World.switness2 [] ps (fun _ w => P w) h
  refine ⟨w', ?_, h3⟩
  clear h h3
  induction h2 with
  | refl => exact h1
  | step _ st ih => exact .step ih st

/-- Server `i` has sent an append request of term `t`. -/
def sentB (E : List Ev) (i : Int) (t : Nat) : Bool :=
  E.any fun ev => decide (ev.node = i) && match ev.eff with
    | .send m => decide (m.type = .appendReq ∧ m.term = t)
    | _ => false

theorem sentB_sound {E : List Ev} {i : Int} {t : Nat} (h : sentB E i t = true) :
    ∃ a ∈ E, a.node = i ∧ ∃ m, a.eff = .send m ∧ m.type = .appendReq ∧ m.term = t := by
  obtain ⟨ev, h1, h2⟩ := List.any_eq_true.1 h
  rw [Bool.and_eq_true] at h2
  obtain ⟨h2, h3⟩ := h2
  refine ⟨ev, h1, of_decide_eq_true h2, ?_⟩
  rcases he : ev.eff with _ | _ | _ | _ | _ | _ | _ | _ | _ | _ | _ | _ | _ | _
  all_goals rw [he] at h3
  all_goals first
    | (cases h3; done)
    | exact ⟨_, rfl, of_decide_eq_true h3⟩

namespace Witness

/-- Three servers that take a snapshot after each entry they apply, and keep one of the entries it covers. -/
def trioK : Cluster := { trio with params := fun _ => { snpDistance := 1, reserved := 1 } }

theorem trioK_ok : trioK.OkS := ⟨by decide, by decide, fun _ => rfl, fun _ => Nat.le_refl 1⟩

/-- Server 1 leads term 1 and replicates command 7 to server 2. Both apply it, make a snapshot, and compact their logs. Then
server 1 replicates command 8 to server 2. -/
def shrinkBegins : List WPlay :=
  (opening 1 ++ [Play.back 20 23, .client 1 7, .recv 31, .back 31 35, .apply 1, .recv 37, .apply 2]).map .plain ++
  [.snapped 39 true, .snapped 43 true] ++ [Play.back 37 41, .client 1 8, .recv 50, .back 50 54].map .plain

/-- Server 1 crashes. Server 3 asks for votes in term 2, which server 2 refuses; server 2 is elected in term 3 by server 3. -/
def shrinkEnds : List WPlay :=
  [Play.kill 1, .election 3, .recv 60, .election 2, .recv 67, .back 67 71].map .plain

end Witness
end Cs.Raft
