import Verif.Raft.Forward
import Verif.Raft.PropsLog

/-!
# The calls of the application that go to the leader (C70, C71)
-/

namespace Cs.Raft
open Cs

/-! ## C70: `append_entries` tells the truth -/

/-- The server is leader and appends the commands, in order and stamped with its term. -/
def AppendsAll (s s' : Srv) (data : List Nat) : Prop :=
  s.role = .leader ∧ s'.log.start = s.log.start ∧
  s'.log.ents = s.log.ents ++ data.map fun d => ⟨s.term, .app d⟩

theorem client_data (s : Srv) (data : List Nat) {q : Resp} {s' : Srv}
    (h : processReq (userReq .clientReq (data.map fun d => ⟨0, .app d⟩)) s = (.ok q, s')) :
    (q.accepted = true → AppendsAll s s' data) ∧ (q.accepted = false → s'.log = s.log) := by
  obtain ⟨h1, h2⟩ := client_request s _ rfl h
  refine ⟨fun ha => ?_, h2⟩
  obtain ⟨e1, e2, e3, _⟩ := h1 ha
  refine ⟨e1, e2, ?_⟩
  rw [e3]
  show _ ++ (data.map fun d => (⟨0, .app d⟩ : Entry)).map _ = _
  rw [List.map_map]
  rfl

theorem toOther_out (legal : Nat → Bool) (f : Front) (r : Req) : ∃ o cl, f.toOther legal r = (.ok o, { f with clients := cl }) ∧
    (o = .now false ∨ ∃ a, o = .sent a r) := by
  have hu : ∀ c, useClient c r = .now false ∨ ∃ a, useClient c r = .sent a r := by
    intro c
    cases c with
    | none => exact .inl rfl
    | some a => exact .inr ⟨a, rfl⟩
  unfold Front.toOther
  split
  · exact ⟨_, _, rfl, hu _⟩
  · split
    · exact ⟨_, _, rfl, .inl rfl⟩
    · exact ⟨_, _, rfl, hu _⟩

theorem toSelf_out (f : Front) (r : Req) {o : Outcome} {f' : Front} (h : f.toSelf r = (.ok o, f')) :
    ∃ q, processReq r { f.srv with trace := [] } = (.ok q, f'.srv) ∧ o = .now q.accepted := by
  unfold Front.toSelf at h
  split at h
  · rename_i q s' hp
    cases h
    exact ⟨q, hp, rfl⟩
  · cases h

/-- C70, result at once: if a call of `append_entries` gives true, this server is leader and has appended the commands, at the end
of its log, in order; if it gives false, the log is unchanged. -/
theorem append_entries_now (legal : Nat → Bool) (f : Front) (data : List Nat) {b : Bool} {f' : Front}
    (h : f.appendEntries legal data = (.ok (.now b), f')) :
    (b = true → data ≠ [] ∧ AppendsAll f.srv f'.srv data) ∧ (b = false → f'.srv.log = f.srv.log) := by
  unfold Front.appendEntries at h
  split at h
  · cases h; exact ⟨nofun, fun _ => rfl⟩
  rename_i hd
  unfold Front.toLeader at h
  split at h
  · cases h; exact ⟨nofun, fun _ => rfl⟩
  split at h
  · obtain ⟨q, hp, ho⟩ := toSelf_out _ _ h
    cases ho
    obtain ⟨h1, h2⟩ := client_data _ data hp
    exact ⟨fun ha => ⟨hd, h1 ha⟩, h2⟩
  · obtain ⟨o, cl, e1, e2⟩ := toOther_out legal f (userReq .clientReq (data.map fun d => ⟨0, .app d⟩))
    rw [e1] at h
    cases h
    rcases e2 with e2 | ⟨a, e2⟩
    · cases e2; exact ⟨nofun, fun _ => rfl⟩
    · cases e2

/-- C70, forwarded: the call changes nothing here; the result becomes true only if the server that answered was leader and
appended the commands, at the end of its log, in order; it becomes false only if the log of that server is unchanged. -/
theorem append_entries_forwarded (legal : Nat → Bool) (f : Front) (data : List Nat) {a : Nat} {r : Req} {f' : Front}
    (h : f.appendEntries legal data = (.ok (.sent a r), f')) :
    f'.srv = f.srv ∧ ∀ (s : Srv) (q : Resp) (s' : Srv), processReq r s = (.ok q, s') →
      (callBack (some q) = some true → AppendsAll s s' data) ∧ (callBack (some q) = some false → s'.log = s.log) := by
  have key : f'.srv = f.srv ∧ r = userReq .clientReq (data.map fun d => ⟨0, .app d⟩) := by
    unfold Front.appendEntries at h
    split at h
    · cases h
    unfold Front.toLeader at h
    split at h
    · cases h
    split at h
    · obtain ⟨q, hp, ho⟩ := toSelf_out _ _ h
      cases ho
    · obtain ⟨o, cl, e1, e2⟩ := toOther_out legal f (userReq .clientReq (data.map fun d => ⟨0, .app d⟩))
      rw [e1] at h
      cases h
      rcases e2 with e2 | ⟨a, e2⟩
      · cases e2
      · cases e2; exact ⟨rfl, rfl⟩
  obtain ⟨e1, rfl⟩ := key
  refine ⟨e1, fun s q s' hp => ?_⟩
  obtain ⟨h1, h2⟩ := client_data s data hp
  unfold callBack
  exact ⟨fun h => h1 (Option.some.inj h), fun h => h2 (Option.some.inj h)⟩

/-- Server 1, a follower of server 3, forwards two commands to it; server 3 is leader and appends them. -/
example :
    let f : Front := ⟨{ id := 1, leader := 3, config := ⟨0, 0, [⟨1, 11⟩, ⟨3, 13⟩]⟩, term := 5 }, []⟩
    let s : Srv := { id := 3, leader := 3, config := ⟨0, 0, [⟨3, 13⟩]⟩, term := 5, role := .leader }
    ∃ r, (f.appendEntries (fun _ => true) [8, 9]).1 = .ok (.sent 13 r) ∧
      ((processReq r s).1.toOption.bind fun q => callBack (some q)) = some true ∧
      (processReq r s).2.log = ⟨1, [⟨5, .app 8⟩, ⟨5, .app 9⟩]⟩ :=
  ⟨userReq .clientReq [⟨0, .app 8⟩, ⟨0, .app 9⟩], by decide +kernel⟩

/-! ## C71: calls go to the configured address of the leader -/

/-- The server after a list of inputs and calls. -/
def Front.run (legal : Nat → Bool) (f : Front) (ds : List Doing) : Front := ds.foldl (Front.after legal) f

/-- A server that has just been started for the first time. -/
def Front.start (id : Int) (cfg : Config) : Front := ⟨boot id {} Env.plain { config := cfg }, []⟩

theorem Front.run_snoc (legal : Nat → Bool) (f : Front) (ds : List Doing) (d : Doing) :
    f.run legal (ds ++ [d]) = (f.run legal ds).after legal d := by
  unfold Front.run; rw [List.foldl_append]; rfl

/-- The clients for server `i` are for address `e`. -/
def Front.For (legal : Nat → Bool) (i : Int) (e : Nat) (f : Front) : Prop := ∀ c, (i, c) ∈ f.clients → c = client legal e

theorem Front.For.toLeader {legal : Nat → Bool} {i : Int} {e : Nat} {f : Front} (h : f.For legal i e)
    (hc : ∀ c, f.srv.config.get i = some c → c.endpoint = e) (r : Req) : (f.toLeader legal r).2.For legal i e := by
  unfold Front.toLeader
  split
  · exact h
  split
  · unfold Front.toSelf
    split <;> exact h
  · unfold Front.toOther
    split
    · exact h
    · split
      · exact h
      · rename_i s hg
        intro c hm
        rcases List.mem_append.1 hm with hm | hm
        · exact h c hm
        · cases List.mem_singleton.1 hm
          rw [hc s hg]

theorem Front.For.after {legal : Nat → Bool} {i : Int} {e : Nat} {f : Front} (h : f.For legal i e)
    (hc : ∀ c, f.srv.config.get i = some c → c.endpoint = e) (d : Doing) : (f.after legal d).For legal i e := by
  cases d with
  | input x => exact h
  | append data =>
    show (f.appendEntries legal data).2.For legal i e
    unfold Front.appendEntries
    split
    · exact h
    · exact h.toLeader hc _
  | add c => exact h.toLeader hc _
  | remove id => exact h.toLeader hc _

theorem Front.For.run {legal : Nat → Bool} {i : Int} {e : Nat} {f : Front} (h : f.For legal i e) (ds : List Doing)
    (hc : ∀ ds', ds' <+: ds → ∀ c, (f.run legal ds').srv.config.get i = some c → c.endpoint = e) :
    (f.run legal ds).For legal i e := by
  induction ds generalizing f with
  | nil => exact h
  | cons d ds ih =>
    refine ih (h.after (hc [] (List.nil_prefix ..)) d) fun ds' hp => ?_
    exact hc (d :: ds') (List.cons_prefix_cons.2 ⟨rfl, hp⟩)

/-- C71, partial. A call of a server that takes another member for the leader goes to the configured address of that member, in
all histories in which the configurations of this server never give that member another address. What is missing: clients are
kept for ever, see `forwarded_to_old_address` and `never_forwarded`. -/
theorem forwarded_to_leader_partial (legal : Nat → Bool) (id : Int) (cfg : Config) (ds : List Doing) (r : Req) {i : Int}
    {m : SrvCfg} (hl : ((Front.start id cfg).run legal ds).srv.leader = i) (hi : i ≠ -1)
    (hn : i ≠ ((Front.start id cfg).run legal ds).srv.id)
    (hm : ((Front.start id cfg).run legal ds).srv.config.get i = some m) (ha : legal m.endpoint = true)
    (hc : ∀ ds', ds' <+: ds → ∀ c, ((Front.start id cfg).run legal ds').srv.config.get i = some c → c.endpoint = m.endpoint) :
    (((Front.start id cfg).run legal ds).toLeader legal r).1 = .ok (.sent m.endpoint r) := by
  have hf := Front.For.run (legal := legal) (i := i) (e := m.endpoint) (f := Front.start id cfg) (fun c h => (by cases h)) ds hc
  have hcl : client legal m.endpoint = some m.endpoint := by unfold client; rw [if_pos ha]
  generalize (Front.start id cfg).run legal ds = f at *
  unfold Front.toLeader
  rw [hl, if_neg hi, if_neg hn]
  unfold Front.toOther
  split
  · rename_i j c hq
    have h1 : j = i := by have := List.find?_some hq; rw [hl] at this; simpa using this
    rw [hf c (h1 ▸ List.mem_of_find?_eq_some hq), hcl]
    rfl
  · rw [hl, hm]
    show (Except.ok (useClient (client legal m.endpoint) r) : Except Fault Outcome) = _
    rw [hcl]
    rfl

/-- An append request. -/
def appendOf (term : Nat) (src : Int) (lastTerm lastIdx commitIdx : Nat) (es : List Entry) : Doing :=
  .input (.req { type := .appendReq, term := term, src := src, dst := 1, lastTerm := lastTerm, lastIdx := lastIdx, commitIdx := commitIdx, entries := es })

/-- Server 2 leads term 1, and server 1 forwards a call to it. Then server 3 leads; server 2 is removed, and added again with
address 22. -/
def movedAway : List Doing :=
  [appendOf 1 2 0 0 0 [], .append [7],
   appendOf 2 3 0 0 1 [⟨2, .conf ⟨1, 0, [⟨1, 11⟩, ⟨3, 13⟩]⟩⟩], .input .apply,
   appendOf 2 3 2 1 2 [⟨2, .conf ⟨2, 1, [⟨1, 11⟩, ⟨3, 13⟩, ⟨2, 22⟩]⟩⟩], .input .apply]

/-- The members at the beginning. -/
def members123 : Config := ⟨0, 0, [⟨1, 11⟩, ⟨2, 12⟩, ⟨3, 13⟩]⟩

/-- Server 1 forwards a call to the configured address of server 3, the leader after all this. -/
example : let f := (Front.start 1 members123).run (fun _ => true) movedAway
    f.srv.leader = 3 ∧ f.srv.config.get 3 = some ⟨3, 13⟩ ∧
    (f.toLeader (fun _ => true) (userReq .clientReq [⟨0, .app 8⟩])).1 =
      .ok (.sent 13 (userReq .clientReq [⟨0, .app 8⟩])) := by
  decide +kernel

/-- Not C71. Server 2 leads again after all this, and calls of server 1 go to the address server 2 had before. -/
theorem forwarded_to_old_address : ∃ (id : Int) (cfg : Config) (ds : List Doing) (m : SrvCfg) (r : Req) (a : Nat),
    ((Front.start id cfg).run (fun _ => true) ds).srv.leader = m.id ∧ m.id ≠ -1 ∧ m.id ≠ id ∧
    ((Front.start id cfg).run (fun _ => true) ds).srv.config.get m.id = some m ∧
    (((Front.start id cfg).run (fun _ => true) ds).toLeader (fun _ => true) r).1 = .ok (.sent a r) ∧ a ≠ m.endpoint :=
  ⟨1, members123, movedAway ++ [appendOf 3 2 2 2 2 []], ⟨2, 22⟩, userReq .clientReq [⟨0, .app 8⟩], 12, by decide +kernel⟩

/-- Not C71. If the first address was not legal, calls are refused for ever, although the member has a legal address now. -/
theorem never_forwarded : ∃ (legal : Nat → Bool) (id : Int) (cfg : Config) (ds : List Doing) (m : SrvCfg) (r : Req),
    ((Front.start id cfg).run legal ds).srv.leader = m.id ∧ m.id ≠ -1 ∧ m.id ≠ id ∧
    ((Front.start id cfg).run legal ds).srv.config.get m.id = some m ∧ legal m.endpoint = true ∧
    (((Front.start id cfg).run legal ds).toLeader legal r).1 = .ok (.now false) :=
  ⟨fun a => a != 12, 1, members123, movedAway ++ [appendOf 3 2 2 2 2 []], ⟨2, 22⟩, userReq .clientReq [⟨0, .app 8⟩],
    by decide +kernel⟩

/-- A leader without peers appends two commands at once; the same server as a follower of nobody refuses them. -/
example :
    let f : Front := ⟨{ id := 1, leader := 1, config := ⟨0, 0, [⟨1, 11⟩]⟩, term := 5, role := .leader }, []⟩
    (f.appendEntries (fun _ => true) [8, 9]).1 = .ok (.now true) ∧
    (f.appendEntries (fun _ => true) [8, 9]).2.srv.log = ⟨1, [⟨5, .app 8⟩, ⟨5, .app 9⟩]⟩ ∧
    ((Front.start 1 members123).appendEntries (fun _ => true) [8, 9]).1 = .ok (.now false) := by
  decide +kernel

end Cs.Raft
