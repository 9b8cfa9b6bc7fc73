import Verif.Cluster.ChangeInv
import Verif.Cluster.Witness

/-!
# Changes of the members (C94)

The executions are those of `Verif/Cluster/Change.lean`: servers are added and removed while the cluster runs.

A server uses a new configuration only when its commit thread has applied it, so servers use different ones at the same time, and
votes of servers that are removed meanwhile count. Both lead to two leaders of one term, which commit different commands. What
remains is arithmetic: two leaders of one term have been elected by different servers.
-/

namespace Cs.Raft
open Cs Witness

variable {C : Cluster} {w w' : World}

/-! ## Who elects -/

/-- Server `i` takes the lead of term `t`, at a time when its configuration has `m` servers: its peers and itself. -/
structure Cluster.Takes (C : Cluster) (w w' : World) (i : Int) (t m : Nat) : Prop where
  step : C.CStep w w'
  leads : ∃ x, (⟨i, x, .lead t⟩ : Ev) ∈ w'.evs.drop w.evs.length
  size : ∃ s, (w.node i).up = some s ∧ s.peers.length + 1 = m

/-- It has the votes of more than half as many servers. -/
theorem CInv.electors (hC : C.Named) (h : CInv C w) (hu : w.Uninvited) {i : Int} {t m : Nat} (ht : C.Takes w w' i t m) :
    i ∈ C.ids ∧ ∃ V : List Int, V.Nodup ∧ m < 2 * V.length ∧ ∀ v ∈ V, v = i ∨ AnsweredC w.evs i t v := by
  obtain ⟨hs, ⟨x', hl⟩, s, hup, hm⟩ := ht
  cases hs with
  | @mk k x es n hi hd hst =>
  have hl : (⟨i, x', .lead t⟩ : Ev) ∈ (w.evs ++ es.map fun e => (⟨k, x, e⟩ : Ev)).drop w.evs.length := hl
  rw [List.drop_left] at hl
  obtain ⟨e, he, heq⟩ := List.mem_map.1 hl
  cases heq
  obtain ⟨xs, h1, h2⟩ := h.hist i hi
  rcases hn : w.node i with ⟨d, up⟩
  rw [hn] at hst h1 hup
  have hup : up = some s := hup
  subst hup
  have hy : ∃ y, x' = some y := by
    generalize hn0 : (⟨d, some s⟩ : Node) = n0 at hst
    cases hst with
    | run _ => exact ⟨_, rfl⟩
    | survive _ => exact ⟨_, rfl⟩
    | crash _ => exact ⟨_, rfl⟩
    | boot => cases hn0
  obtain ⟨y, rfl⟩ := hy
  have hall : ∀ z ∈ xs ++ [y], DeliverC w.evs i z := by
    intro z hz
    rcases List.mem_append.1 hz with hz | hz
    · exact h2 z hz
    · rw [List.mem_singleton.1 hz]; exact hd y rfl
  obtain ⟨V, v1, v2, v3, _⟩ := leader_needs_majority_partial h1 hst he fun z hz => (h.input hC hu (hall z hz)).1
  refine ⟨hi, V, v1, hm ▸ v2, fun v hv => (v3 v hv).imp (fun h => h) ?_⟩
  rintro ⟨ty, r, g1, g2, g3, g4, g5⟩
  exact ⟨ty, r, hall _ g1, g2, g3, g4, g5⟩

theorem AnsweredC.mono {E E' : List Ev} {i : Int} {t : Nat} {v : Int} (hs : ∀ e ∈ E, e ∈ E') (h : AnsweredC E i t v) :
    AnsweredC E' i t v := by
  obtain ⟨ty, r, h1, h2⟩ := h
  exact ⟨ty, r, h1.mono hs, h2⟩

/-- Nodup lists without a common element inside a list. -/
theorem disjoint_le {l V W : List Int} (hv : V.Nodup) (hw : W.Nodup) (hd : ∀ x ∈ V, x ∉ W) (h1 : ∀ x ∈ V, x ∈ l)
    (h2 : ∀ x ∈ W, x ∈ l) : V.length + W.length ≤ l.length := by
  rw [← List.length_append]
  refine List.Nodup.length_le_of_subset ?_ ?_
  · exact List.nodup_append.2 ⟨hv, hw, fun a ha b hb e => hd a ha (e ▸ hb)⟩
  · intro x hx
    rcases List.mem_append.1 hx with h | h
    · exact h1 x h
    · exact h2 x h

/-- In an execution that led to `w`, server `i` took the lead of term `t`, when its configuration had `m` servers. -/
def Cluster.Took (C : Cluster) (w : World) (i : Int) (t m : Nat) : Prop :=
  ∃ w1 w2, C.CReach w1 ∧ C.Takes w1 w2 i t m ∧ C.CRun w2 w

/-- The votes it got. -/
theorem Cluster.Took.electors (hC : C.Named) (hu : w.Uninvited) {i : Int} {t m : Nat} (h : C.Took w i t m) (hm : 2 ≤ m) :
    CInv C w ∧ ∃ V : List Int, V.Nodup ∧ m < 2 * V.length ∧ ∀ v ∈ V, v ∈ C.ids ∧ ∃ e ∈ effsOf w.evs v, e.vote? = some (t, i) := by
  obtain ⟨w1, w2, h1, h2, h3⟩ := h
  have hr : C.CRun w1 w := (Cluster.CRun.step .refl h2.step).trans h3
  have inv := Cluster.CReach.inv hC (h1.trans hr) hu
  obtain ⟨hi, V, v1, v2, v3⟩ := (h1.inv hC (hu.before hr)).electors hC (hu.before hr) h2
  have hsub : ∀ e ∈ w1.evs, e ∈ w.evs := by
    obtain ⟨E, he⟩ := hr.evs
    intro e h
    rw [he]
    exact List.mem_append_left _ h
  refine ⟨inv, V, v1, v2, fun v hv => ?_⟩
  rcases v3 v hv with rfl | hg
  · obtain ⟨y, hy, hne⟩ : ∃ y ∈ V, y ≠ v := by
      rcases V with _ | ⟨p, _ | ⟨q, V⟩⟩
      · cases hv
      · simp at v2; omega
      · by_cases hp : p = v
        · refine ⟨q, by simp, fun hq => ?_⟩
          rw [List.nodup_cons] at v1
          exact v1.1 (by rw [hp, ← hq]; simp)
        · exact ⟨p, by simp, hp⟩
    rcases v3 y hy with e | hg
    · exact absurd e hne
    · exact ⟨hi, (inv.voter (hg.mono hsub)).2.2⟩
  · exact ⟨(inv.voter (hg.mono hsub)).1, (inv.voter (hg.mono hsub)).2.1⟩

/-- C94, the part that holds, when nobody is invited: two servers that take the lead of the same term, each with another server in
its configuration, have been elected by different servers: more than half as many as each has in its configuration, and none
voted for both. -/
theorem electors_disjoint_partial (hC : C.Named) (hu : w.Uninvited) {i j : Int} {t m n : Nat} (h1 : C.Took w i t m)
    (h2 : C.Took w j t n) (hm : 2 ≤ m) (hn : 2 ≤ n) (hij : i ≠ j) : ∃ V W : List Int, V.Nodup ∧ W.Nodup ∧ m < 2 * V.length ∧
      n < 2 * W.length ∧ (∀ v ∈ V, v ∈ C.ids) ∧ (∀ v ∈ W, v ∈ C.ids) ∧ ∀ v ∈ V, v ∉ W := by
  obtain ⟨inv, V, v1, v2, v3⟩ := h1.electors hC hu hm
  obtain ⟨_, W, u1, u2, u3⟩ := h2.electors hC hu hn
  refine ⟨V, W, v1, u1, v2, u2, fun v hv => (v3 v hv).1, fun v hv => (u3 v hv).1, fun v hv hw => hij ?_⟩
  obtain ⟨a1, e, a2, a3⟩ := v3 v hv
  obtain ⟨_, e', b2, b3⟩ := u3 v hw
  exact inv.oneVote hC hu a1 a2 b2 a3 b3

/-- C94, the part that holds: if nobody is invited, and the configurations of the two servers are so large that majorities of both
together need more servers than there are, then two servers that take the lead of the same term are the same server. This is so
if none is removed, and if one of an odd number of servers is removed. -/
theorem one_leader_while_few_leave_partial (hC : C.Named) (hu : w.Uninvited) {i j : Int} {t m n : Nat} (h1 : C.Took w i t m)
    (h2 : C.Took w j t n) (hm : 2 ≤ m) (hn : 2 ≤ n) (hN : C.ids.length < m / 2 + n / 2 + 2) : i = j := by
  by_cases hij : i = j
  · exact hij
  · obtain ⟨V, W, a1, a2, a3, a4, a5, a6, a7⟩ := electors_disjoint_partial hC hu h1 h2 hm hn hij
    have := disjoint_le a1 a2 a7 a5 a6
    omega

/-! ## Two servers are added -/

/-- Servers 1, 2 and 3 found the cluster; servers 4 and 5 wait. -/
def grow : Cluster :=
  { servers := [⟨1, 0⟩, ⟨2, 0⟩, ⟨3, 0⟩, ⟨4, 0⟩, ⟨5, 0⟩],
    config := fun i => if i = 4 then ⟨0, 0, [⟨4, 0⟩]⟩ else if i = 5 then ⟨0, 0, [⟨5, 0⟩]⟩ else ⟨0, 0, [⟨1, 0⟩, ⟨2, 0⟩, ⟨3, 0⟩]⟩ }

theorem grow_named : grow.Named := ⟨by decide, by decide⟩

/-- Server 1 is elected by server 2 and the first configuration is committed and applied by servers 1, 2 and 3. -/
def growFounded : List CPlay :=
  [.start 1, .start 2, .start 3, .start 4, .start 5, .election 1, .recv 3, .back 3 7, .recv 11, .back 11 16, .recv 12,
    .back 12 20, .recv 18, .recv 21, .back 18 23, .back 21 25, .apply 1, .apply 2, .apply 3]

/-- Server 4 is added: it joins, gets the log, and servers 1 and 2 have the new configuration; servers 1 and 4 apply it. -/
def growFourth : List CPlay :=
  [.add 1 4, .recv 29, .joined 29 32, .recv 34, .back 34 37, .apply 1, .heartbeat 1 4, .recv 41, .back 41 42, .recv 43,
    .back 43 47, .apply 4, .apply 4]

/-- Server 5 is added in the same way; server 3 gets the configurations as well, but its commit thread has not applied them. -/
def growFifth : List CPlay :=
  [.add 1 5, .recv 50, .joined 50 53, .recv 35, .back 35 57, .recv 58, .recv 55, .back 58 61, .back 55 63, .apply 1,
    .heartbeat 1 5, .recv 68, .back 68 69, .recv 70, .recv 66, .apply 4, .apply 5, .apply 5, .apply 5]

/-- Server 4 is elected by 1, 4 and 5 of five servers, server 3 by 2 and 3 of three servers. -/
def growElections : List CPlay :=
  [.election 4, .election 3, .recv 91, .recv 84, .recv 87, .back 91 95, .back 84 99, .back 87 103]

/-- Server 3 replicates command 7 to server 2, server 4 command 8 to servers 1 and 5, and both apply their command. -/
def growCommands : List CPlay :=
  [.client 3 7, .client 4 8, .recv 107, .back 107 120, .recv 121, .back 121 126, .apply 3, .apply 3, .apply 3, .recv 110,
    .recv 113, .back 110 132, .back 113 133, .recv 134, .recv 135, .back 134 138, .back 135 141, .apply 4]

/-- The script. -/
def growScript : List CPlay := growFounded ++ growFourth ++ growFifth ++ growElections ++ growCommands

def growB (w : World) : Bool :=
  w.leadsB 3 2 && w.leadsB 4 2 && w.did 3 (.commit 4 ⟨2, .app 7⟩) && w.did 4 (.commit 4 ⟨2, .app 8⟩)

/-- C94 fails: after servers 4 and 5 have been added to three servers, one after the other, servers 3 and 4 both lead term 2, and
commit different commands at index 4. -/
theorem added_servers_split_cluster : ∃ C : Cluster, C.Named ∧ ∃ w, C.CReach w ∧ w.Leads 3 2 ∧ w.Leads 4 2 ∧
    (∃ ev ∈ w.evs, ev.node = 3 ∧ ev.eff = .commit 4 ⟨2, .app 7⟩) ∧ ∃ ev ∈ w.evs, ev.node = 4 ∧ ev.eff = .commit 4 ⟨2, .app 8⟩ := by
  obtain ⟨w, h1, hp⟩ := World.cwitness (C := grow) growScript growB (by decide +kernel)
  unfold growB at hp
  simp only [Bool.and_eq_true] at hp
  obtain ⟨⟨⟨p1, p2⟩, p3⟩, p4⟩ := hp
  exact ⟨grow, grow_named, w, h1, World.leadsB_iff.1 p1, World.leadsB_iff.1 p2, World.did_mem p3, World.did_mem p4⟩

/-! ## One server is removed -/

/-- Four servers. -/
def shrink : Cluster :=
  { servers := [⟨1, 0⟩, ⟨2, 0⟩, ⟨3, 0⟩, ⟨4, 0⟩], config := fun _ => ⟨0, 0, [⟨1, 0⟩, ⟨2, 0⟩, ⟨3, 0⟩, ⟨4, 0⟩]⟩ }

theorem shrink_named : shrink.Named := ⟨by decide, by decide⟩

/-- Server 1 is elected by servers 2 and 3, and all apply the first configuration. -/
def shrinkFounded : List CPlay :=
  [.start 1, .start 2, .start 3, .start 4, .election 1, .recv 2, .recv 3, .back 2 8, .back 3 12, .recv 16, .recv 17, .back
    16 20, .back 17 22, .recv 18, .apply 1, .back 18 29, .recv 31, .apply 4, .recv 24, .recv 25, .apply 2, .apply 3]

/-- Server 4 is asked to leave and agrees; the configuration without it is committed, and servers 1 and 2 apply it. Server 3 knows
that it is committed. -/
def shrinkRemoved : List CPlay :=
  [.remove 1 4, .back 24 36, .back 25 38, .back 31 33, .recv 41, .left 41 43, .recv 45, .recv 46, .back 45 49, .back 46
    51, .recv 53, .recv 54, .apply 1, .apply 2]

/-- Servers 2 and 3 become candidates; server 1 votes for server 2, server 4 for server 3. Then server 3 applies the new
configuration, and when server 1 refuses its vote it finds that it has two votes of three. -/
def shrinkElections : List CPlay :=
  [.election 2, .election 3, .recv 63, .recv 69, .recv 67, .back 63 73, .back 69 77, .apply 3, .back 67 78]

/-- Both replicate a command to server 1: it takes that of server 2, and to server 3 it answers that it has its entry. -/
def shrinkCommands : List CPlay :=
  [.client 2 7, .client 3 8, .recv 81, .recv 86, .back 81 94, .back 86 95, .recv 96, .recv 97, .back 96 100, .back 97 101,
    .apply 2, .apply 3]

/-- The script. -/
def shrinkScript : List CPlay := shrinkFounded ++ shrinkRemoved ++ shrinkElections ++ shrinkCommands

/-- Server `i` is up and has these peers. -/
def World.peersB (w : World) (i : Int) (ps : List Int) : Bool :=
  match (w.node i).up with
  | some s => decide (s.peers.map Peer.id = ps)
  | none => false

def shrinkB (w : World) : Bool :=
  w.leadsB 2 2 && w.leadsB 3 2 && w.did 2 (.commit 3 ⟨2, .app 7⟩) && w.did 3 (.commit 3 ⟨2, .app 8⟩) && w.peersB 2 [1, 3] &&
    w.peersB 3 [1, 2]

theorem World.peersB_iff {i : Int} {ps : List Int} (h : w.peersB i ps = true) :
    ∃ s, (w.node i).up = some s ∧ s.peers.map Peer.id = ps := by
  unfold World.peersB at h
  split at h
  · rename_i s hs
    exact ⟨s, hs, of_decide_eq_true h⟩
  · cases h

/-- C94 fails: after one of four servers has been removed, servers 2 and 3 both lead term 2, and commit different commands at
index 3. Both have the configuration of the three servers that remain. -/
theorem removed_server_splits_cluster : ∃ C : Cluster, C.Named ∧ ∃ w, C.CReach w ∧ w.Leads 2 2 ∧ w.Leads 3 2 ∧
    (∃ ev ∈ w.evs, ev.node = 2 ∧ ev.eff = .commit 3 ⟨2, .app 7⟩) ∧ (∃ ev ∈ w.evs, ev.node = 3 ∧ ev.eff = .commit 3 ⟨2, .app 8⟩) ∧
    (∃ s, (w.node 2).up = some s ∧ s.peers.map Peer.id = [1, 3]) ∧ ∃ s, (w.node 3).up = some s ∧ s.peers.map Peer.id = [1, 2] := by
  obtain ⟨w, h1, hp⟩ := World.cwitness (C := shrink) shrinkScript shrinkB (by decide +kernel)
  unfold shrinkB at hp
  simp only [Bool.and_eq_true] at hp
  obtain ⟨⟨⟨⟨⟨p1, p2⟩, p3⟩, p4⟩, p5⟩, p6⟩ := hp
  exact ⟨shrink, shrink_named, w, h1, World.leadsB_iff.1 p1, World.leadsB_iff.1 p2, World.did_mem p3, World.did_mem p4,
    World.peersB_iff p5, World.peersB_iff p6⟩

/-! ## The positive theorems are not void -/

/-- A move with which server `i` takes the lead. -/
def World.takesB (C : Cluster) (w : World) (p : CPlay) (i : Int) (t m : Nat) : Bool :=
  match w.cmove C p with
  | some w' => (w'.evs.drop w.evs.length).any (fun ev => decide (ev.node = i ∧ ev.eff = .lead t)) &&
      (match (w.node i).up with
        | some s => decide (s.peers.length + 1 = m)
        | none => false)
  | none => false

theorem World.takesB_iff {p : CPlay} {i : Int} {t m : Nat} (h : w.takesB C p i t m = true) :
    ∃ w', w.cmove C p = some w' ∧ C.Takes w w' i t m := by
  unfold World.takesB at h
  split at h
  · rename_i w' hw
    rw [Bool.and_eq_true] at h
    obtain ⟨h1, h2⟩ := h
    obtain ⟨ev, e1, e2⟩ := List.any_eq_true.1 h1
    obtain ⟨e3, e4⟩ := of_decide_eq_true e2
    refine ⟨w', hw, World.cmove_step hw, ⟨ev.cause, ?_⟩, ?_⟩
    · rw [← e3, ← e4]; exact e1
    · split at h2
      · rename_i s hs
        exact ⟨s, hs, of_decide_eq_true h2⟩
      · cases h2
  · cases h

/-- Moves after which `P` holds. -/
def World.after (C : Cluster) (w : World) (ps : List CPlay) (P : World → Bool) : Bool :=
  match w.cplay C ps with
  | some w' => P w'
  | none => false

theorem World.after_run {w0 : World} {ps : List CPlay} {P : World → Bool} (h : w.after C ps P = true) (hr : C.CRun w0 w) :
    ∃ w', w.cplay C ps = some w' ∧ C.CRun w0 w' ∧ P w' = true := by
  unfold World.after at h
  split at h
  · rename_i w' hw
    exact ⟨w', hw, World.cplay_run hr hw, h⟩
  · cases h

def World.uninvitedB (w : World) : Bool := w.evs.all fun ev => match ev.eff with
  | .send q => decide (q.type ≠ .joinReq)
  | _ => true

theorem World.uninvitedB_iff (h : w.uninvitedB = true) : w.Uninvited := by
  intro ev hev q hq
  have := List.all_eq_true.1 h ev hev
  rw [hq] at this
  exact of_decide_eq_true this

/-- The removal above, up to the two elections: server 2 takes the lead of term 2 with three servers in its configuration, later
server 3 with three as well, of four servers in all: with one server more in one of the configurations this is impossible. -/
def twiceB (w : World) : Bool :=
  w.takesB shrink (.back 63 73) 2 2 3 && w.after shrink [.back 63 73] fun w1 =>
    w1.after shrink [.back 69 77, .apply 3] fun w2 =>
      w2.takesB shrink (.back 67 78) 3 2 3 && w2.after shrink [.back 67 78] fun w3 => w3.uninvitedB

example : ∃ C : Cluster, C.Named ∧ ∃ w, w.Uninvited ∧ C.Took w 2 2 3 ∧ C.Took w 3 2 3 := by
  obtain ⟨w, h1, hp⟩ := World.cwitness (C := shrink) (shrinkFounded ++ shrinkRemoved ++ shrinkElections.take 5) twiceB
    (by decide +kernel)
  unfold twiceB at hp
  rw [Bool.and_eq_true] at hp
  obtain ⟨w1', e1, t1⟩ := World.takesB_iff hp.1
  obtain ⟨w1, e2, r1, h2⟩ := World.after_run hp.2 h1
  obtain ⟨w2, e3, r2, h3⟩ := World.after_run h2 .refl
  rw [Bool.and_eq_true] at h3
  obtain ⟨w3', e4, t3⟩ := World.takesB_iff h3.1
  obtain ⟨w3, e5, r3, h4⟩ := World.after_run h3.2 (.refl)
  have f1 : w1' = w1 := by
    unfold World.cplay at e2
    rw [e1] at e2
    cases e2; rfl
  have f3 : w3' = w3 := by
    unfold World.cplay at e5
    rw [e4] at e5
    cases e5; rfl
  subst f1 f3
  exact ⟨shrink, shrink_named, w3', World.uninvitedB_iff h4, ⟨w, w1', h1, t1, r2.trans r3⟩, ⟨w2, w3', r1.trans r2, t3, .refl⟩⟩

/-- The bound of the second theorem can be met: server 1 takes the lead of term 1 with four servers in its configuration. -/
example : ∃ C : Cluster, C.Named ∧ ∃ w, w.Uninvited ∧ C.Took w 1 1 4 ∧ C.ids.length < 4 / 2 + 4 / 2 + 2 := by
  obtain ⟨w, h1, hp⟩ := World.cwitness (C := shrink) (shrinkFounded.take 8)
    (fun w => w.takesB shrink (.back 3 12) 1 1 4 && w.after shrink [.back 3 12] World.uninvitedB) (by decide +kernel)
  rw [Bool.and_eq_true] at hp
  obtain ⟨w1', e1, t1⟩ := World.takesB_iff hp.1
  obtain ⟨w1, e2, r1, h2⟩ := World.after_run hp.2 h1
  have f1 : w1' = w1 := by
    unfold World.cplay at e2
    rw [e1] at e2
    cases e2; rfl
  subst f1
  exact ⟨shrink, shrink_named, w1', World.uninvitedB_iff h2, ⟨w, w1', h1, t1, .refl⟩, by decide⟩

end Cs.Raft
