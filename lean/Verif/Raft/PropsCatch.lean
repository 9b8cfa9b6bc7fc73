import Verif.Raft.PropsSnap
import Verif.Raft.PropsLog
import Verif.Raft.PropsJoin

/-!
# A member that is behind gets the log of the leader (C79)
-/

namespace Cs.Raft
open Cs

/-! ## Specification -/

/-- The requests to server `i` among effects. -/
def sendsTo (i : Int) (es : List Eff) : List Req := (sends es).filter fun r => r.dst == i

/-- A leader that has its whole log and has no record of a member that goes beyond it. -/
structure Serves (L : Srv) : Prop where
  lead : L.role = .leader
  start : L.log.start = 1
  next : ∀ p ∈ L.peers, p.nextIdx ≤ L.log.next
  batch : 0 < L.params.maxAppend

/-- What may happen to the leader in between: it goes on as leader of its term, its log grows by entries of its term, and nothing
happens that concerns server `i`. -/
structure LeadsOn (i : Int) (L L' : Srv) : Prop where
  serves : Serves L'
  id : L'.id = L.id
  term : L'.term = L.term
  log : ∃ es, L'.log.ents = L.log.ents ++ es ∧ ∀ e ∈ es, e.term = L.term
  record : ∀ p, L.findPeer i = some p → ∃ p', L'.findPeer i = some p' ∧ p'.nextIdx = p.nextIdx

/-- What may happen to the member in between: anything that leaves its term, role and log alone. -/
structure FollowsOn (F F' : Srv) : Prop where
  id : F'.id = F.id
  term : F'.term = F.term
  role : F'.role = F.role
  log : F'.log = F.log

/-- The leader `L` has sent the request `q` to the member `F`. Messages between the two arrive: `F` handles the request, the leader
handles the answer and sends another request to `F`, and so on, with other things happening to the two servers in between. After
finitely many requests the member is `Good`. -/
inductive Reaches (i : Int) (Good : Srv → Prop) : Srv → Srv → Req → Prop
  | last {L F F' : Srv} {q : Req} : (Input.req q).run { F with trace := [] } = (.ok ⟨⟩, F') → Good F' → Reaches i Good L F q
  | more {L F L' F' : Srv} {q q' : Req} {a : Resp} :
      (Input.req q).run { F with trace := [] } = (.ok ⟨⟩, F') → answers F'.trace = [a] →
      (Input.peerResp q.type a).run { L with trace := [] } = (.ok ⟨⟩, L') → sendsTo i L'.trace = [q'] →
      (∀ L'' F'', LeadsOn i L' L'' → FollowsOn F' F'' → Reaches i Good L'' F'' q') → Reaches i Good L F q

/-- A member of the leader's cluster that has its whole log and is not ahead of the leader's term. -/
structure Hears (L F : Srv) : Prop where
  start : F.log.start = 1
  term : F.term ≤ L.term
  follows : F.term = L.term → F.role ≠ .leader

/-- The logs match (C41), and the entries of the leader's term are its own. -/
structure Fits (L F : Srv) : Prop where
  matching : ∀ k a b, L.log.get? k = some a → F.log.get? k = some b → a.term = b.term → ∀ j ≤ k, L.log.get? j = F.log.get? j
  own : ∀ k b, F.log.get? k = some b → b.term = L.term → k < L.log.next

/-! ## The leader -/

theorem find_setPeer_ne (s : Srv) {i k : Int} (h : k ≠ i) (f : Peer → Peer) (hf : ∀ p, (f p).id = p.id) :
    (s.setPeer (.member k) f).findPeer i = s.findPeer i := by
  show (s.peers.map fun p => if p.id == k then f p else p).find? (·.id == i) = _
  unfold Srv.findPeer
  induction s.peers with
  | nil => rfl
  | cons p ps ih =>
    rw [List.map_cons, List.find?_cons, List.find?_cons]
    by_cases hk : (p.id == k) = true
    · have e1 : p.id = k := by simpa using hk
      rw [if_pos hk, hf, show (p.id == i) = false from by rw [e1]; simpa using h]
      exact ih
    · rw [if_neg hk]
      split
      · rfl
      · exact ih

theorem ids_setPeer (s : Srv) (k : Int) (f : Peer → Peer) (hf : ∀ p, (f p).id = p.id) :
    (s.setPeer (.member k) f).peers.map Peer.id = s.peers.map Peer.id := by
  show (s.peers.map fun p => if p.id == k then f p else p).map Peer.id = _
  rw [List.map_map]
  refine List.map_congr_left fun p _ => ?_
  show (if p.id == k then f p else p).id = _
  split
  · exact hf p
  · rfl

theorem bounds_setPeer {s : Srv} {k : Int} {f : Peer → Peer} {b : Nat} (h : ∀ p ∈ s.peers, p.nextIdx ≤ b)
    (hf : ∀ p, p.nextIdx ≤ b → (f p).nextIdx ≤ b) : ∀ p ∈ (s.setPeer (.member k) f).peers, p.nextIdx ≤ b := by
  intro p hp
  obtain ⟨p0, hp0, rfl⟩ := List.mem_map.1 hp
  split
  · exact hf _ (h _ hp0)
  · exact h _ hp0

theorem sendsTo_append (i : Int) (es fs : List Eff) : sendsTo i (es ++ fs) = sendsTo i es ++ sendsTo i fs := by
  unfold sendsTo sends
  rw [List.filterMap_append, List.filter_append]

/-- A request the leader makes for server `i` when the next index is `n`. -/
structure ReqFor (i : Int) (L : Srv) (n : Nat) (q : Req) : Prop where
  type : q.type = .appendReq
  term : q.term = L.term
  dst : q.dst = i
  idx : q.lastIdx = n - 1
  prev : ∀ e, L.log.get? (n - 1) = some e → q.lastTerm = e.term
  entries : q.entries <+: L.log.ents.drop (n - 1)

/-- What the leader does while it handles an answer of server `i`. -/
structure View (i : Int) (n : Nat) (L s : Srv) : Prop where
  id : s.id = L.id
  term : s.term = L.term
  log : s.log = L.log
  params : s.params = L.params
  lead : s.role = .leader
  ids : s.peers.map Peer.id = L.peers.map Peer.id
  next : ∀ p ∈ s.peers, p.nextIdx ≤ L.log.next
  record : ∃ p, s.findPeer i = some p ∧ p.nextIdx = n ∧ (p.busy = false ∧ sendsTo i s.trace = [] ∨
    p.busy = true ∧ ∃ q, sendsTo i s.trace = [q] ∧ ReqFor i L n q ∧ (n < L.log.next → q.entries ≠ []))

theorem View.setPeer {i : Int} {n : Nat} {L s : Srv} (h : View i n L s) (k : Int) (f : Peer → Peer) (h1 : ∀ p, (f p).id = p.id)
    (h2 : ∀ p, p.nextIdx ≤ L.log.next → (f p).nextIdx ≤ L.log.next)
    (h3 : k = i → ∀ p, p.nextIdx = n → (f p).nextIdx = n ∧ (f p).busy = p.busy) : View i n L (s.setPeer (.member k) f) := by
  refine ⟨h.id, h.term, h.log, h.params, h.lead, (ids_setPeer s k f h1).trans h.ids, ?_, ?_⟩
  · exact bounds_setPeer h.next h2
  · obtain ⟨p, e1, e2, e3⟩ := h.record
    by_cases hk : k = i
    · subst hk
      obtain ⟨g1, g2⟩ := h3 rfl p e2
      exact ⟨f p, by rw [find_setPeer _ _ _ h1, e1]; rfl, g1, by rw [g2]; exact e3⟩
    · exact ⟨p, by rw [find_setPeer_ne _ hk _ h1]; exact e1, e2, e3⟩

theorem find_of_ids {s : Srv} {k : Int} (h : k ∈ s.peers.map Peer.id) : ∃ p ∈ s.peers, p.id = k ∧ s.findPeer k = some p := by
  obtain ⟨p, hp, he⟩ := List.mem_map.1 h
  have : (s.peers.find? fun q => q.id == k).isSome = true := by
    rw [List.find?_isSome]; exact ⟨p, hp, by simpa using he⟩
  obtain ⟨q, hq⟩ := Option.isSome_iff_exists.1 this
  exact ⟨q, List.mem_of_find?_eq_some hq, by simpa using List.find?_some hq, hq⟩

/-- A request is made. -/
theorem createAppend_run {s : Srv} {k : Int} {p : Peer} (h1 : s.log.start = 1) (hp : s.findPeer k = some p) (h2 : p.nextIdx ≤ s.log.next) :
    ∃ q, createAppendReq (.member k) s =
      (.ok q, s.setPeer (.member k) fun p => if p.nextIdx = 0 then { p with nextIdx := s.log.next } else p) ∧
      q.dst = k ∧ (0 < p.nextIdx → q.type = .appendReq ∧ q.term = s.term ∧ q.lastIdx = p.nextIdx - 1 ∧
        (∀ e, s.log.get? (p.nextIdx - 1) = some e → q.lastTerm = e.term) ∧ q.entries = s.behind (p.nextIdx - 1)) := by
  have hid : p.id = k := by have := List.find?_some hp; simpa using this
  have hpos : 0 < s.log.next := by unfold Log.next; omega
  unfold createAppendReq
  rw [bind_get, bind_modPeer]
  have f1 : (s.setPeer (.member k) fun p => if p.nextIdx = 0 then { p with nextIdx := s.log.next } else p).findPeer k =
      some (if p.nextIdx = 0 then { p with nextIdx := s.log.next } else p) := by
    rw [find_setPeer _ _ _ (by intro p; split <;> rfl), hp]; rfl
  have hlog : (s.setPeer (.member k) fun p => if p.nextIdx = 0 then { p with nextIdx := s.log.next } else p).log = s.log := rfl
  have hterm : (s.setPeer (.member k) fun p => if p.nextIdx = 0 then { p with nextIdx := s.log.next } else p).term = s.term := rfl
  have hpar : (s.setPeer (.member k) fun p => if p.nextIdx = 0 then { p with nextIdx := s.log.next } else p).params = s.params := rfl
  generalize (s.setPeer (.member k) fun p => if p.nextIdx = 0 then { p with nextIdx := s.log.next } else p) = s1 at f1 hlog hterm hpar
  have f2 : ∃ p1, s1.findPeer k = some p1 ∧ p1.id = k ∧ p1.nextIdx ≤ s.log.next ∧ (0 < p.nextIdx → p1.nextIdx = p.nextIdx) := by
    refine ⟨_, f1, ?_, ?_, ?_⟩
    · split <;> exact hid
    · split
      · exact Nat.le_refl _
      · exact h2
    · intro h; rw [if_neg (by omega)]
  obtain ⟨p1, f2, e1, e2, e3⟩ := f2
  have g1 : getPeer (.member k) s1 = (.ok p1, s1) := getPeer_some f2
  rw [run_bind_ok g1, if_neg (by omega), if_neg (by omega)]
  unfold appendReqFrom
  have ht : ∃ t, termFor s1 (p1.nextIdx - 1) = some t ∧ ∀ e, s1.log.get? (p1.nextIdx - 1) = some e → t = e.term := by
    unfold termFor
    by_cases h0 : p1.nextIdx - 1 = 0
    · rw [if_pos h0]
      refine ⟨0, rfl, fun e he => ?_⟩
      have := (Log.get?_lt he).1
      rw [hlog] at this
      omega
    · rw [if_neg h0, if_pos (by rw [hlog]; omega)]
      obtain ⟨e, he⟩ := Log.get?_some (l := s1.log) (i := p1.nextIdx - 1) (by rw [hlog]; omega) (by rw [hlog]; omega)
      rw [he]
      refine ⟨e.term, rfl, fun e' he' => ?_⟩
      cases he'; rfl
  obtain ⟨t, ht, ht2⟩ := ht
  rw [run_bind_ok (termForLog_some ht), run_bind_ok (entriesFrom_ok (.inr (by rw [hlog]; omega))), bind_get, run_bind_ok g1]
  refine ⟨_, rfl, e1, fun h0 => ⟨rfl, hterm, ?_, ?_, ?_⟩⟩
  · show p1.nextIdx - 1 = _; rw [e3 h0]
  · rw [← e3 h0, ← hlog]; exact ht2
  · show s1.behind (p1.nextIdx - 1) = _
    rw [e3 h0]
    unfold Srv.behind
    rw [hlog, hpar]

theorem behind_prefix {s : Srv} (h1 : s.log.start = 1) (n : Nat) : s.behind (n - 1) <+: s.log.ents.drop (n - 1) := by
  unfold Srv.behind Log.range
  split
  · exact List.nil_prefix
  · rw [h1, show n - 1 + 1 - 1 = n - 1 by omega]
    exact List.take_prefix _ _

theorem behind_ne {s : Srv} (h1 : s.log.start = 1) (h2 : 0 < s.params.maxAppend) {n : Nat} (hn : 0 < n) (h : n < s.log.next) :
    s.behind (n - 1) ≠ [] := by
  unfold Srv.behind Log.range
  rw [if_neg (by omega), h1]
  intro hc
  have := congrArg List.length hc
  rw [List.length_take, List.length_drop, List.length_nil] at this
  unfold Log.next at h this
  omega

variable {i : Int} {n : Nat} {L : Srv}

theorem view_request (hL : Serves L) (h0 : 0 < n) {k : Int} (hk : k ∈ L.peers.map Peer.id) {s : Srv} (h : View i n L s) :
    ∃ b s', requestAppend (.member k) s = (.ok b, s') ∧ View i n L s' ∧
      (k = i → ∃ p, s'.findPeer i = some p ∧ p.busy = true) := by
  obtain ⟨p, hpm, hpk, hp⟩ := find_of_ids (s := s) (k := k) (by rw [h.ids]; exact hk)
  unfold requestAppend
  rw [run_bind_ok (getPeer_some (show s.peer (.member k) = some p from hp))]
  by_cases hb : p.busy = true
  · rw [if_pos hb]
    exact ⟨_, _, rfl, h, fun e => by subst e; exact ⟨p, hp, hb⟩⟩
  rw [if_neg hb, bind_modPeer]
  have f1 : (s.setPeer (.member k) fun p => { p with busy := true }).findPeer k = some { p with busy := true } := by
    rw [find_setPeer _ _ _ (by intro p; rfl), hp]; rfl
  obtain ⟨q, e1, e2, e3⟩ := createAppend_run (s := s.setPeer (.member k) fun p => { p with busy := true }) (p := { p with busy := true })
    (by show s.log.start = 1; rw [h.log]; exact hL.start) f1 (by show p.nextIdx ≤ s.log.next; rw [h.log]; exact h.next p hpm)
  rw [run_bind_ok e1, bind_emit]
  refine ⟨_, _, rfl, ?_, ?_⟩
  · by_cases hki : k = i
    · subst hki
      obtain ⟨p', c1, c2, c3⟩ := h.record
      rw [hp] at c1
      cases c1
      have hs : sendsTo k s.trace = [] := by
        rcases c3 with c3 | c3
        · exact c3.2
        · exact absurd c3.1 hb
      obtain ⟨d1, d2, d3, d4, d5⟩ := e3 (by show 0 < p.nextIdx; omega)
      refine ⟨h.id, h.term, h.log, h.params, h.lead, ?_, ?_, ?_⟩
      · refine (ids_setPeer _ k _ (by intro p; split <;> rfl)).trans ((ids_setPeer s k _ (by intro p; rfl)).trans h.ids)
      · exact bounds_setPeer (bounds_setPeer h.next fun _ hx => hx) fun x hx => by
          have hl : s.log.next = L.log.next := by rw [h.log]
          show (if x.nextIdx = 0 then { x with nextIdx := s.log.next } else x).nextIdx ≤ _
          split
          · show s.log.next ≤ _; omega
          · exact hx
      · refine ⟨{ p with busy := true }, ?_, c2, .inr ⟨rfl, q, ?_, ?_, ?_⟩⟩
        · show (Srv.setPeer _ _ _).findPeer k = _
          rw [find_setPeer _ _ _ (by intro p; split <;> rfl), f1]
          show some (if p.nextIdx = 0 then _ else _) = _
          rw [if_neg (by omega)]
        · show sendsTo k (s.trace ++ [.send q]) = [q]
          rw [sendsTo_append, hs]
          show [q].filter (fun r => r.dst == k) = [q]
          rw [List.filter_cons_of_pos (by simpa using e2)]
          rfl
        · refine ⟨d1, d2.trans h.term, e2, ?_, ?_, ?_⟩
          · rw [d3]; show p.nextIdx - 1 = _; rw [c2]
          · intro e he
            refine d4 e ?_
            show s.log.get? (p.nextIdx - 1) = _
            rw [c2, h.log]; exact he
          · rw [d5]
            show s.behind (p.nextIdx - 1) <+: _
            rw [c2, ← h.log]
            exact behind_prefix (by rw [h.log]; exact hL.start) n
        · intro hlt
          rw [d5]
          show s.behind (p.nextIdx - 1) ≠ _
          rw [c2]
          exact behind_ne (by rw [h.log]; exact hL.start) (by rw [h.params]; exact hL.batch) h0 (by rw [h.log]; exact hlt)
    · have g := (h.setPeer k (fun p => { p with busy := true }) (fun _ => rfl) (fun _ hx => hx) (fun e => absurd e hki)).setPeer k
        (fun p => if p.nextIdx = 0 then { p with nextIdx := s.log.next } else p) (by intro p; split <;> rfl)
        (by intro x hx; have hl : s.log.next = L.log.next := by rw [h.log]
            split
            · show s.log.next ≤ _; omega
            · exact hx) (fun e => absurd e hki)
      refine ⟨g.id, g.term, g.log, g.params, g.lead, g.ids, g.next, ?_⟩
      obtain ⟨p', c1, c2, c3⟩ := g.record
      refine ⟨p', c1, c2, ?_⟩
      have : sendsTo i (s.trace ++ [.send q]) = sendsTo i s.trace := by
        rw [sendsTo_append]
        have : sendsTo i [.send q] = [] := by
          show [q].filter (fun r => r.dst == i) = []
          rw [List.filter_cons_of_neg (by rw [e2]; simpa using hki)]
          rfl
        rw [this, List.append_nil]
      show p'.busy = false ∧ sendsTo i (s.trace ++ [.send q]) = [] ∨ p'.busy = true ∧ ∃ q', sendsTo i (s.trace ++ [.send q]) = [q'] ∧ _
      rw [this]
      exact c3
  · intro e
    subst e
    refine ⟨if p.nextIdx = 0 then { p with busy := true, nextIdx := s.log.next } else { p with busy := true }, ?_, by split <;> rfl⟩
    show (Srv.setPeer _ _ _).findPeer k = _
    rw [find_setPeer _ _ _ (by intro p; split <;> rfl), f1]
    rfl

theorem view_notify (hL : Serves L) (h0 : 0 < n) {k : Int} (hk : k ∈ L.peers.map Peer.id) {s : Srv} (h : View i n L s) :
    ∃ s', commitNotify k s = (.ok ⟨⟩, s') ∧ View i n L s' := by
  obtain ⟨b, s1, e1, e2, _⟩ := view_request hL h0 hk h
  unfold commitNotify
  rw [run_bind_ok e1]
  cases b
  · exact ⟨_, rfl, e2.setPeer k (fun p => { p with pending := true }) (fun _ => rfl) (fun _ h => h) fun _ _ h => ⟨h, rfl⟩⟩
  · exact ⟨s1, rfl, e2⟩

theorem view_notifyAll (hL : Serves L) (h0 : 0 < n) : ∀ (ks : List Int), (∀ k ∈ ks, k ∈ L.peers.map Peer.id) → ∀ {s : Srv}, View i n L s →
    ∃ s', forEach commitNotify ks s = (.ok ⟨⟩, s') ∧ View i n L s'
  | [], _, s, h => ⟨s, rfl, h⟩
  | k :: ks, hk, s, h => by
    obtain ⟨s1, e1, e2⟩ := view_notify hL h0 (hk k (List.mem_cons_self ..)) h
    obtain ⟨s2, e3, e4⟩ := view_notifyAll hL h0 ks (fun x hx => hk x (List.mem_cons_of_mem _ hx)) e2
    refine ⟨s2, ?_, e4⟩
    show (commitNotify k >>= fun _ => forEach commitNotify ks) s = _
    rw [run_bind_ok e1, e3]

theorem view_commit (hL : Serves L) (h0 : 0 < n) (m : Nat) {s : Srv} (h : View i n L s) :
    ∃ s', commit m s = (.ok ⟨⟩, s') ∧ View i n L s' := by
  unfold commit
  rw [bind_get]
  by_cases hq : s.quickCommit < m
  · rw [if_pos hq, bind_modify, bind_emit, if_pos h.lead, bind_peerIds]
    refine view_notifyAll hL h0 _ (fun k hk => by rw [← h.ids]; exact hk) ?_
    refine ⟨h.id, h.term, h.log, h.params, h.lead, h.ids, h.next, ?_⟩
    obtain ⟨p, c1, c2, c3⟩ := h.record
    refine ⟨p, c1, c2, ?_⟩
    have : sendsTo i (s.trace ++ [.advance m]) = sendsTo i s.trace := by
      rw [sendsTo_append]; exact List.append_nil _
    show p.busy = false ∧ sendsTo i (s.trace ++ [.advance m]) = [] ∨ p.busy = true ∧ ∃ q', sendsTo i (s.trace ++ [.advance m]) = [q'] ∧ _
    rw [this]
    exact c3
  · rw [if_neg hq]; exact ⟨s, rfl, h⟩

/-- The bookkeeping when an answer to an append request comes in. -/
def Srv.answeredBy (L : Srv) (i : Int) : Srv :=
  ((L.setPeer (.member i) fun p => if MsgType.appendReq = .appendReq ∨ MsgType.appendReq = .snpReq then
      { p with busy := false } else p).setPeer (.member i) (resumeHb L.params)).setPeer (.member i) fun p => { p with lastResp := L.now }

theorem run_appendAnswer {r : Resp} (h1 : r.type = .appendResp) (h2 : r.term = L.term) (h3 : r.src = i)
    (hp : (L.findPeer i).isSome = true) : (Input.peerResp .appendReq r).run L = handleAppendResp r (L.answeredBy i) := by
  show (rpcResult (.member r.src) .appendReq true >>= fun _ => handlePeerResp r) L = _
  rw [h3]
  unfold rpcResult
  have e1 : (do
      let s ← get
      modPeer (.member i) fun p => if MsgType.appendReq = .appendReq ∨ MsgType.appendReq = .snpReq then
        { p with busy := false } else p
      modPeer (.member i) (if true then resumeHb s.params else slowDownHb s.params) : R Unit) L =
    (.ok ⟨⟩, (L.setPeer (.member i) fun p => if MsgType.appendReq = .appendReq ∨ MsgType.appendReq = .snpReq then
      { p with busy := false } else p).setPeer (.member i) (resumeHb L.params)) := rfl
  rw [run_bind_ok e1]
  unfold handlePeerResp
  rw [bind_get, h3]
  have e2 : (((L.setPeer (.member i) fun p => if MsgType.appendReq = .appendReq ∨ MsgType.appendReq = .snpReq then
      { p with busy := false } else p).setPeer (.member i) (resumeHb L.params)).findPeer i).isNone = false := by
    rw [find_setPeer _ _ _ (by intro p; rfl), find_setPeer _ _ _ (by intro p; split <;> rfl)]
    rcases h : L.findPeer i with _ | p
    · rw [h] at hp; cases hp
    · rfl
  rw [if_neg (by rw [e2]; simp), bind_modPeer]
  show (updateTerm r.term >>= fun newer => if newer = true then pure () else dispatchResp r) (L.answeredBy i) = _
  rw [run_bind_ok (run_updateTerm_le (by show r.term ≤ L.term; omega))]
  show dispatchResp r _ = _
  unfold dispatchResp
  rw [h1]

theorem answeredBy_view (hL : Serves L) {p : Peer} (hp : L.findPeer i = some p) (ht : L.trace = []) (f : Peer → Peer)
    (hf : ∀ p, (f p).id = p.id) (hf2 : ∀ p, p.nextIdx ≤ L.log.next → (f p).nextIdx ≤ L.log.next)
    (hb : ∀ p, (f p).busy = p.busy) (hn : ∀ p' : Peer, p'.nextIdx = p.nextIdx → (f p').nextIdx = n) :
    View i n L ((L.answeredBy i).setPeer (.member i) f) := by
  refine ⟨rfl, rfl, rfl, rfl, hL.lead, ?_, ?_, ?_⟩
  · rw [ids_setPeer _ i _ hf]
    unfold Srv.answeredBy
    rw [ids_setPeer _ i _ (by intro p; rfl), ids_setPeer _ i _ (by intro p; rfl), ids_setPeer _ i _ (by intro p; split <;> rfl)]
  · refine bounds_setPeer (bounds_setPeer (bounds_setPeer (bounds_setPeer hL.next ?_) fun _ h => h) fun _ h => h) hf2
    intro x hx
    split <;> exact hx
  · refine ⟨f { p with busy := false, hbInterval := L.params.hbInterval, lastResp := L.now }, ?_, hn _ rfl, .inl ⟨hb _, ?_⟩⟩
    · rw [find_setPeer _ _ _ hf]
      unfold Srv.answeredBy
      rw [find_setPeer _ _ _ (by intro p; rfl), find_setPeer _ _ _ (by intro p; rfl), find_setPeer _ _ _ (by intro p; split <;> rfl), hp]
      rfl
    · show sendsTo i L.trace = []
      rw [ht]; rfl

/-- The next index after a refusal. -/
def lowered (n m : Nat) : Nat := if 0 < m ∧ m < n then m else n - 1

theorem view_done (hL : Serves L) (h0 : 0 < n) {s : Srv} (h : View i n L s) (hi : i ∈ L.peers.map Peer.id) :
    ∃ s', requestAppendTo i s = (.ok ⟨⟩, s') ∧ View i n L s' ∧ ∃ p q, s'.findPeer i = some p ∧ p.nextIdx = n ∧
      sendsTo i s'.trace = [q] ∧ ReqFor i L n q ∧ (n < L.log.next → q.entries ≠ []) := by
  obtain ⟨b, s1, e1, e2, e3⟩ := view_request hL h0 hi h
  unfold requestAppendTo
  rw [run_bind_ok e1]
  refine ⟨s1, rfl, e2, ?_⟩
  obtain ⟨p, c1, c2⟩ := e3 rfl
  obtain ⟨p', d1, d2, d3⟩ := e2.record
  rw [c1] at d1
  cases d1
  rcases d3 with d3 | ⟨_, q, d3, d4, d5⟩
  · rw [c2] at d3; cases d3.1
  · exact ⟨p, q, c1, d2, d3, d4, d5⟩

/-- The leader handles a refusal. -/
theorem refused_run (hL : Serves L) {p : Peer} (hp : L.findPeer i = some p) (ht : L.trace = []) {r : Resp} (h1 : r.type = .appendResp)
    (h2 : r.term = L.term) (h3 : r.src = i) (h4 : r.accepted = false) (h5 : 1 < p.nextIdx) :
    ∃ L', (Input.peerResp .appendReq r).run L = (.ok ⟨⟩, L') ∧ View i (lowered p.nextIdx r.nextIdx) L L' ∧
      ∃ p' q, L'.findPeer i = some p' ∧ p'.nextIdx = lowered p.nextIdx r.nextIdx ∧ sendsTo i L'.trace = [q] ∧
        ReqFor i L (lowered p.nextIdx r.nextIdx) q ∧ (lowered p.nextIdx r.nextIdx < L.log.next → q.entries ≠ []) := by
  have hi : i ∈ L.peers.map Peer.id := List.mem_map.2 ⟨p, List.mem_of_find?_eq_some hp, by have := List.find?_some hp; simpa using this⟩
  rw [run_appendAnswer h1 h2 h3 (by rw [hp]; rfl)]
  have hlow : 0 < lowered p.nextIdx r.nextIdx := by unfold lowered; split <;> omega
  have hv := answeredBy_view (n := lowered p.nextIdx r.nextIdx) hL hp ht (fun p =>
    if 0 < r.nextIdx ∧ r.nextIdx < p.nextIdx then { p with nextIdx := r.nextIdx }
    else if 0 < p.nextIdx then { p with nextIdx := p.nextIdx - 1 }
    else p) (by intro p; split
                · rfl
                · split <;> rfl) (by
    intro p hp
    split
    · rename_i h; exact Nat.le_trans (Nat.le_of_lt h.2) hp
    · split
      · exact Nat.le_trans (Nat.sub_le _ _) hp
      · exact hp) (by intro p; split
                      · rfl
                      · split <;> rfl) (by
    intro p' hp'
    unfold lowered
    rw [hp']
    split
    · rfl
    · rw [if_pos (by omega)])
  have hfind : ((L.answeredBy i).findPeer r.src).isNone = false := by
    rw [h3]
    unfold Srv.answeredBy
    rw [find_setPeer _ _ _ (by intro p; rfl), find_setPeer _ _ _ (by intro p; rfl), find_setPeer _ _ _ (by intro p; split <;> rfl), hp]
    rfl
  unfold handleAppendResp
  rw [bind_get, if_neg (by rw [hfind]; simp)]
  simp only [h4, Bool.false_eq_true, if_false]
  unfold refusedResp
  rw [h3]
  have e1 : (modPeer (.member i) (fun p =>
      if 0 < r.nextIdx ∧ r.nextIdx < p.nextIdx then { p with nextIdx := r.nextIdx }
      else if 0 < p.nextIdx then { p with nextIdx := p.nextIdx - 1 } else p) >>= fun _ => (pure true : R Bool)) (L.answeredBy i) =
      (.ok true, (L.answeredBy i).setPeer (.member i) (fun p =>
      if 0 < r.nextIdx ∧ r.nextIdx < p.nextIdx then { p with nextIdx := r.nextIdx }
      else if 0 < p.nextIdx then { p with nextIdx := p.nextIdx - 1 } else p)) := rfl
  rw [run_bind_ok e1]
  generalize ((L.answeredBy i).setPeer (.member i) (fun p =>
      if 0 < r.nextIdx ∧ r.nextIdx < p.nextIdx then { p with nextIdx := r.nextIdx }
      else if 0 < p.nextIdx then { p with nextIdx := p.nextIdx - 1 } else p)) = s1 at hv
  rw [bind_get, if_pos ⟨hv.lead, rfl⟩]
  exact view_done hL hlow hv hi

/-- The leader handles an acceptance and has more to send. -/
theorem accepted_run (hL : Serves L) {p : Peer} (hp : L.findPeer i = some p) (ht : L.trace = []) {r : Resp} (h1 : r.type = .appendResp)
    (h2 : r.term = L.term) (h3 : r.src = i) (h4 : r.accepted = true) (h5 : 0 < r.nextIdx) (h6 : r.nextIdx < L.log.next) :
    ∃ L', (Input.peerResp .appendReq r).run L = (.ok ⟨⟩, L') ∧ View i r.nextIdx L L' ∧
      ∃ p' q, L'.findPeer i = some p' ∧ p'.nextIdx = r.nextIdx ∧ sendsTo i L'.trace = [q] ∧
        ReqFor i L r.nextIdx q ∧ (r.nextIdx < L.log.next → q.entries ≠ []) := by
  have hi : i ∈ L.peers.map Peer.id := List.mem_map.2 ⟨p, List.mem_of_find?_eq_some hp, by have := List.find?_some hp; simpa using this⟩
  rw [run_appendAnswer h1 h2 h3 (by rw [hp]; rfl)]
  have hv := answeredBy_view (n := r.nextIdx) hL hp ht (fun p => { p with nextIdx := r.nextIdx, matched := subU64 r.nextIdx 1 })
    (fun _ => rfl) (fun _ _ => Nat.le_of_lt h6) (fun _ => rfl) (fun _ _ => rfl)
  have hfind : ((L.answeredBy i).findPeer r.src).isNone = false := by
    rw [h3]
    unfold Srv.answeredBy
    rw [find_setPeer _ _ _ (by intro p; rfl), find_setPeer _ _ _ (by intro p; rfl), find_setPeer _ _ _ (by intro p; split <;> rfl), hp]
    rfl
  unfold handleAppendResp
  rw [bind_get, if_neg (by rw [hfind]; simp)]
  simp only [h4, if_true]
  have e1 : ∃ s2, acceptedResp r (L.answeredBy i) = (.ok true, s2) ∧ View i r.nextIdx L s2 := by
    unfold acceptedResp
    rw [h3, bind_modPeer, bind_get]
    generalize ((L.answeredBy i).setPeer (.member i) fun p => { p with nextIdx := r.nextIdx, matched := subU64 r.nextIdx 1 }) = s1 at hv
    obtain ⟨s2, c1, c2⟩ := view_commit hL h5 (commitTarget s1) hv
    rw [run_bind_ok c1]
    obtain ⟨p2, d1, _⟩ := c2.record
    rw [run_bind_ok (getPeer_some (show s2.peer (.member i) = some p2 from d1)), bind_modPeer, bind_get]
    refine ⟨_, ?_, c2.setPeer i (fun p => { p with pending := false }) (fun _ => rfl) (fun _ h => h) fun _ _ h => ⟨h, rfl⟩⟩
    show (Except.ok (p2.pending || decide (r.nextIdx < s2.log.next)), _) = _
    rw [c2.log, decide_eq_true h6, Bool.or_true]
  obtain ⟨s2, e1, e2⟩ := e1
  rw [run_bind_ok e1, bind_get, if_pos ⟨e2.lead, rfl⟩, h3]
  exact view_done hL h5 e2 hi

/-! ## The member -/

theorem answers_rollFx (k : Nat) (e : Entry) : answers (rollFx k e) = [] := by unfold rollFx; split <;> rfl
theorem answers_noteFx (k : Nat) (e : Entry) : answers (noteFx k e) = [] := by unfold noteFx; split <;> rfl

theorem answers_appendFx : ∀ (es : List Entry) (k : Nat), answers (appendFx k es) = []
  | [], _ => rfl
  | e :: es, k => by
    unfold appendFx
    show answers ([.append e] ++ (noteFx k e ++ appendFx (k + 1) es)) = _
    rw [answers_append, answers_append, answers_noteFx, answers_appendFx es (k + 1)]
    rfl

theorem answers_storeFx (l : Log) (k : Nat) (es : List Entry) : answers (storeFx l k es) = [] := by
  unfold storeFx
  split
  · rfl
  · split
    · rename_i e _ _ _ _ _
      rw [List.append_assoc]
      show answers (rollFx _ _ ++ ([.writeAt _ e] ++ (noteFx _ _ ++ appendFx _ _))) = _
      rw [answers_append, answers_append, answers_append, answers_rollFx, answers_noteFx, answers_appendFx]
      rfl
    · exact answers_appendFx _ _

theorem answers_stepDown (s : Srv) : answers s.stepDown.trace = answers s.trace := by
  show answers (s.trace ++ [_]) = _
  rw [answers_append]; exact List.append_nil _

theorem answers_follows (s : Srv) : answers s.follows.trace = answers s.trace := by
  unfold Srv.follows
  split
  · exact answers_stepDown s
  · rfl

theorem answers_heard (s : Srv) (r : Req) : answers (s.heard r).trace = answers s.trace := by
  unfold Srv.heard
  split
  · split
    · refine (answers_stepDown _).trans ?_
      show answers (s.trace ++ [_]) = _
      rw [answers_append]; exact List.append_nil _
    · rfl
  · rfl

theorem answers_advanced (s : Srv) (k : Nat) : answers (s.advanced k).trace = answers s.trace := by
  unfold Srv.advanced
  split
  · show answers (s.trace ++ [_]) = _
    rw [answers_append]; exact List.append_nil _
  · rfl

theorem answers_stored (s : Srv) (r : Req) (cc : Bool) : answers (s.stored r cc).trace = answers s.trace := by
  unfold Srv.stored
  rw [answers_advanced]
  show answers (s.trace ++ _) = _
  rw [answers_append, answers_storeFx, List.append_nil]

theorem heard_lead {s : Srv} {r : Req} (hr : r.type = .appendReq) (h : s.term ≤ r.term) (h2 : s.term = r.term → s.role ≠ .leader) :
    (s.heard r).role ≠ .leader := by
  unfold Srv.heard
  rw [if_pos (.inl hr)]
  by_cases ht : s.term < r.term
  · rw [if_pos ht]; exact fun h => by cases h
  · rw [if_neg ht]; exact h2 (by omega)

theorem stored_id (s : Srv) (r : Req) (cc : Bool) : (s.stored r cc).id = s.id := by
  unfold Srv.stored Srv.advanced; split <;> rfl
theorem stored_role (s : Srv) (r : Req) (cc : Bool) : (s.stored r cc).role = s.role := by
  unfold Srv.stored Srv.advanced; split <;> rfl

theorem Log.store_or (l : Log) {k : Nat} (es : List Entry) (h1 : l.start ≤ k) (h2 : k ≤ l.next) :
    l.store k es = l ∨ (l.store k es).next = k + es.length := by
  unfold Log.store
  split
  · exact .inl rfl
  · right
    have hm : k + matchLen l k es ≤ l.next := by
      rcases hk : matchLen l k es with _ | j
      · omega
      · obtain ⟨x, _, hx, _⟩ := matchLen_agree l k es j (by omega)
        have := (Log.get?_lt hx).2
        omega
    unfold Log.next at hm ⊢
    unfold Log.replaceFrom
    simp only [List.length_append, List.length_take, List.length_drop]
    omega

theorem Log.get?_prefix {l l' : Log} (hs : l'.start = l.start) {es : List Entry} (h : l'.ents = l.ents ++ es) {k : Nat} (hk : k < l.next) :
    l'.get? k = l.get? k := by
  unfold Log.get?
  rw [hs, h]
  split
  · rfl
  · unfold Log.next at hk
    rw [List.getElem?_append_left (by omega)]

/-- The two logs agree below `n`. -/
def AgreeTo (n : Nat) (L F : Srv) : Prop := ∀ j < n, F.log.get? j = L.log.get? j

/-- What the member does with a request of the leader. -/
structure Answer (L F : Srv) (q : Req) (a : Resp) (F' : Srv) : Prop where
  run : (Input.req q).run { F with trace := [] } = (.ok ⟨⟩, F')
  answers : answers F'.trace = [a]
  type : a.type = .appendResp
  aterm : a.term = L.term
  src : a.src = F.id
  id : F'.id = F.id
  start : F'.log.start = 1
  term : F'.term = L.term
  role : F'.role ≠ .leader

theorem member_run (hL : Serves L) {F : Srv} (hF : Hears L F) (hm : Fits L F) (h0 : 0 < n) (hn : n ≤ L.log.next) {q : Req}
    (hq : ReqFor i L n q) : ∃ a F', Answer L F q a F' ∧
      (a.accepted = true ∧ a.nextIdx = n + q.entries.length ∧ AgreeTo (n + q.entries.length) L F' ∧
          (F'.log = F.log ∨ F'.log.next = n + q.entries.length) ∨
        a.accepted = false ∧ 1 < n ∧ ¬AgreeTo n L F ∧ F'.log = F.log) := by
  have hh := processAppend { F with trace := [] } q hq.type (by show 1 ≤ F.log.start; rw [hF.start]; exact Nat.le_refl _)
  have hterm : ({ F with trace := [] }.heard q).term = L.term := by
    rw [heard_term (.inl hq.type), hq.term]
    show max F.term L.term = _
    have := hF.term
    omega
  have hrole : ({ F with trace := [] }.heard q).role ≠ .leader := by
    refine heard_lead hq.type ?_ ?_
    · rw [hq.term]; exact hF.term
    · rw [hq.term]; exact hF.follows
  have hlog : ({ F with trace := [] }.heard q).log = F.log := heard_log _ q
  have hid : ({ F with trace := [] }.heard q).id = F.id := heard_id _ q
  have hans : answers ({ F with trace := [] }.heard q).trace = [] := answers_heard _ q
  have hrun : (Input.req q).run { F with trace := [] } = (processReq q >>= fun a => emit (.reply a)) { F with trace := [] } := rfl
  generalize { F with trace := [] }.heard q = H at hh hterm hrole hlog hid hans
  rcases he : processReq q { F with trace := [] } with ⟨x, F1⟩
  rw [he] at hh
  cases hh with
  | unknown h => rw [hlog, hF.start] at h; exact absurd h (by omega)
  | twoLeaders _ h => exact absurd h hrole
  | stale h => rw [hterm, hq.term] at h; exact absurd h (by omega)
  | refused _ _ h1 h2 =>
    rw [run_bind_ok he] at hrun
    refine ⟨refusal H q, _, ⟨hrun, ?_, rfl, hterm, hid, ?_, ?_, ?_, ?_⟩, .inr ⟨rfl, ?_, ?_, ?_⟩⟩
    · show answers (H.follows.trace ++ [_]) = _
      rw [answers_append, answers_follows, hans]; rfl
    · show H.follows.id = _; rw [follows_id, hid]
    · show H.follows.log.start = _; rw [follows_log, hlog, hF.start]
    · show H.follows.term = _; rw [follows_term, hterm]
    · show H.follows.role ≠ _; rw [follows_role hrole]; exact fun h => by cases h
    · rw [hq.idx] at h1; omega
    · rw [hq.idx] at h1 h2
      intro hag
      obtain ⟨e, he1⟩ := Log.get?_some (l := L.log) (i := n - 1) (by rw [hL.start]; omega) (by omega)
      have he2 := hag (n - 1) (by omega)
      rw [he1] at he2
      have hlt := (Log.get?_lt he2).2
      rw [hlog] at h2
      rcases h2 with h2 | ⟨t, h2, h3⟩
      · omega
      · unfold termFor at h2
        rw [if_neg h1, if_pos (by rw [hlog, hF.start]; omega), hlog, he2] at h2
        cases h2
        exact h3 (hq.prev e he1).symm
    · show H.follows.log = _; rw [follows_log, hlog]
  | @accepted cc _ _ h1 h2 =>
    rw [run_bind_ok he] at hrun
    rw [hq.idx, hlog] at h1
    have hle : n ≤ F.log.next := by
      rcases h1 with h1 | h1
      · unfold Log.next; rw [hF.start]; omega
      · omega
    have hst : F.log.start ≤ n := by rw [hF.start]; exact h0
    have hidx : q.lastIdx + 1 = n := by rw [hq.idx]; omega
    have hlog' : (H.follows.stored q cc).log = F.log.store n q.entries := by rw [stored_log, follows_log, hlog, hidx]
    have hlow : AgreeTo n L F := by
      intro j hj
      rcases h1 with h1 | ⟨h1, h3⟩
      · unfold Log.get?
        rw [if_pos (by rw [hF.start]; omega), if_pos (by rw [hL.start]; omega)]
      · by_cases hz : n - 1 = 0
        · unfold Log.get?
          rw [if_pos (by rw [hF.start]; omega), if_pos (by rw [hL.start]; omega)]
        obtain ⟨e, he1⟩ := Log.get?_some (l := L.log) (i := n - 1) (by rw [hL.start]; omega) (by omega)
        obtain ⟨x, hx⟩ := Log.get?_some (l := F.log) (i := n - 1) (by rw [hF.start]; omega) h1
        unfold termFor at h3
        rw [if_neg hz, if_pos (by rw [hlog, hF.start]; omega), hlog, hx, hq.prev e he1] at h3
        have h4 : x.term = e.term := Option.some.inj h3
        exact (hm.matching (n - 1) e x he1 hx h4.symm j (by omega)).symm
    have hent : ∀ k e, q.entries[k]? = some e → L.log.get? (n + k) = some e := by
      intro k e hk
      obtain ⟨t, ht⟩ := hq.entries
      have h5 : (L.log.ents.drop (n - 1))[k]? = some e := by
        rw [← ht, List.getElem?_append_left (List.getElem?_eq_some_iff.1 hk).1]; exact hk
      unfold Log.get?
      rw [hL.start, if_neg (by omega), ← h5, List.getElem?_drop]
      congr 1; omega
    refine ⟨acceptance H q, _, ⟨hrun, ?_, rfl, hterm, hid, ?_, ?_, ?_, ?_⟩, .inl ⟨rfl, ?_, ?_, ?_⟩⟩
    · show answers ((H.follows.stored q cc).trace ++ [_]) = _
      rw [answers_append, answers_stored, answers_follows, hans]; rfl
    · show (H.follows.stored q cc).id = _; rw [stored_id, follows_id, hid]
    · show (H.follows.stored q cc).log.start = _; rw [hlog', Log.store_start, hF.start]
    · show (H.follows.stored q cc).term = _; rw [stored_term, follows_term, hterm]
    · show (H.follows.stored q cc).role ≠ _; rw [stored_role, follows_role hrole]; exact fun h => by cases h
    · show q.lastIdx + q.entries.length + 1 = _; omega
    · intro j hj
      show (H.follows.stored q cc).log.get? j = _
      rw [hlog']
      by_cases hjn : j < n
      · rw [Log.store_below hjn hle]; exact hlow j hjn
      · obtain ⟨k, rfl⟩ := Nat.exists_eq_add_of_le (Nat.le_of_not_lt hjn)
        have hk : q.entries[k]? = some q.entries[k] := List.getElem?_eq_getElem (by omega)
        rw [hent k _ hk]
        rcases Log.store_at hst hle hk with ⟨x, g1, g2, g3⟩ | g3
        · rw [g3]
          have := hm.matching (n + k) _ x (hent k _ hk) g1 g2.symm (n + k) (Nat.le_refl _)
          rw [hent k _ hk, g1] at this
          exact this.symm
        · exact g3
    · show (H.follows.stored q cc).log = _ ∨ (H.follows.stored q cc).log.next = _
      rw [hlog']
      exact Log.store_or F.log q.entries hst hle

/-! ## Both -/

theorem LeadsOn.get {L' : Srv} (h : LeadsOn i L L') (hs : L.log.start = 1) {k : Nat} (hk : k < L.log.next) :
    L'.log.get? k = L.log.get? k := by
  obtain ⟨es, he, _⟩ := h.log
  exact Log.get?_prefix (by rw [hs, h.serves.start]) he hk

theorem LeadsOn.next {L' : Srv} (h : LeadsOn i L L') (hs : L.log.start = 1) : L.log.next ≤ L'.log.next := by
  obtain ⟨es, he, _⟩ := h.log
  unfold Log.next
  rw [hs, h.serves.start, he, List.length_append]
  omega

theorem LeadsOn.new {L' : Srv} (h : LeadsOn i L L') (hs : L.log.start = 1) {k : Nat} {e : Entry} (hk : L.log.next ≤ k)
    (he : L'.log.get? k = some e) : e.term = L.term := by
  obtain ⟨es, h1, h2⟩ := h.log
  refine h2 e ?_
  unfold Log.get? at he
  unfold Log.next at hk
  rw [h.serves.start, if_neg (by omega), h1, List.getElem?_append_right (by omega)] at he
  exact List.mem_of_getElem? he

/-- The logs still match after a member has handled a request. -/
theorem Fits.on {L' F F' : Srv} {m : Nat} (hs : L.log.start = 1) (h : LeadsOn i L L') (hm : Fits L F) (hle : m ≤ L.log.next)
    (ha : AgreeTo m L F') (hl : F'.log = F.log ∨ F'.log.next = m) : Fits L' F' := by
  have hcase : ∀ k b, F'.log.get? k = some b → m ≤ k → F'.log = F.log := by
    intro k b hb hk
    rcases hl with hl | hl
    · exact hl
    · have := (Log.get?_lt hb).2; omega
  refine ⟨fun k a b h1 h2 h3 j hj => ?_, fun k b h1 h2 => ?_⟩
  · by_cases hk : k < m
    · rw [h.get hs (by omega)]; exact (ha j (by omega)).symm
    · have hf := hcase k b h2 (by omega)
      rw [hf] at h2 ⊢
      by_cases hk2 : k < L.log.next
      · rw [h.get hs hk2] at h1
        rw [h.get hs (by omega)]
        exact hm.matching k a b h1 h2 h3 j hj
      · have h4 := h.new hs (by omega) h1
        exact absurd (hm.own k b h2 (by rw [← h3, h4])) hk2
  · have := h.next hs
    by_cases hk : k < m
    · omega
    · rw [hcase k b h1 (by omega)] at h1
      have := hm.own k b h1 (by rw [h2, h.term])
      omega

theorem ReqFor.on {L' : Srv} {q : Req} (hs : L.log.start = 1) (h : LeadsOn i L L') (hn : n ≤ L.log.next) (hq : ReqFor i L n q)
    (h0 : 0 < n) : ReqFor i L' n q := by
  refine ⟨hq.type, hq.term.trans h.term.symm, hq.dst, hq.idx, fun e he => ?_, ?_⟩
  · rw [h.get hs (by omega)] at he; exact hq.prev e he
  · obtain ⟨es, he, _⟩ := h.log
    obtain ⟨t, ht⟩ := hq.entries
    rw [he, List.drop_append_of_le_length (by unfold Log.next at hn; omega), ← ht, List.append_assoc]
    exact ⟨_, rfl⟩

/-- The leader, the member and a request that is under way. -/
structure Way (i : Int) (g n : Nat) (L F : Srv) (q : Req) : Prop where
  serves : Serves L
  hears : Hears L F
  fits : Fits L F
  id : F.id = i
  pos : 0 < n
  le : n ≤ L.log.next
  goal : g ≤ L.log.next
  req : ReqFor i L n q
  more : n < g → q.entries ≠ []
  record : ∃ p, L.findPeer i = some p ∧ p.nextIdx = n

theorem ReqFor.fits {q : Req} (hq : ReqFor i L n q) (hs : L.log.start = 1) (hn : n ≤ L.log.next) (h0 : 0 < n) :
    n + q.entries.length ≤ L.log.next := by
  obtain ⟨t, ht⟩ := hq.entries
  have := congrArg List.length ht
  rw [List.length_append, List.length_drop] at this
  unfold Log.next at hn ⊢
  omega

/-- Going on after the leader has sent another request. -/
theorem Way.on {g m : Nat} {F L1 L2 F1 F2 : Srv} {q' : Req} (hL : Serves L) (hg : g ≤ L.log.next) (hm : Fits L F)
    (hv : View i m L L1) (hr : ∃ p, L1.findPeer i = some p ∧ p.nextIdx = m) (h0 : 0 < m) (hle : m ≤ L.log.next)
    (hq : ReqFor i L m q') (hmore : m < L.log.next → q'.entries ≠ []) {c : Nat} (hc : c ≤ L.log.next)
    (ha : AgreeTo c L F1) (hl : F1.log = F.log ∨ F1.log.next = c) (h1 : F1.id = i) (h2 : Hears L F1)
    (hd : LeadsOn i L1 L2) (hf : FollowsOn F1 F2) :
    Way i g m L2 F2 q' ∧ ∀ b ≤ L.log.next, AgreeTo b L F1 → AgreeTo b L2 F2 := by
  have hd' : LeadsOn i { L with peers := L1.peers } L2 := by
    refine ⟨hd.serves, hd.id.trans hv.id, hd.term.trans hv.term, ?_, ?_⟩
    · obtain ⟨es, e1, e2⟩ := hd.log
      exact ⟨es, by rw [e1, hv.log], fun e he => (e2 e he).trans hv.term⟩
    · exact hd.record
  have hs : ({ L with peers := L1.peers } : Srv).log.start = 1 := hL.start
  have hm' : Fits { L with peers := L1.peers } F := ⟨hm.matching, hm.own⟩
  have hq' : ReqFor i { L with peers := L1.peers } m q' := ⟨hq.type, hq.term, hq.dst, hq.idx, hq.prev, hq.entries⟩
  have hfit := hm'.on hs hd' hc ha hl
  have hnext : L.log.next ≤ L2.log.next := hd'.next hs
  have hterm : L2.term = L.term := hd.term.trans hv.term
  refine ⟨⟨hd.serves, ⟨by rw [hf.log]; exact h2.start, by rw [hf.term, hterm]; exact h2.term, by rw [hf.term, hterm, hf.role]; exact h2.follows⟩,
    ⟨by rw [hf.log]; exact hfit.matching, by rw [hf.log]; exact hfit.own⟩, hf.id.trans h1, h0, Nat.le_trans hle hnext,
    Nat.le_trans hg hnext, hq'.on hs hd' hle h0, fun h => hmore (by omega), ?_⟩, ?_⟩
  · obtain ⟨p, e1, e2⟩ := hr
    obtain ⟨p', e3, e4⟩ := hd.record p e1
    exact ⟨p', e3, e4.trans e2⟩
  · intro b hb hab j hj
    rw [hf.log, hab j hj]
    exact (hd'.get hs (show j < L.log.next by omega)).symm

theorem Way.trace {g : Nat} {F : Srv} {q : Req} (h : Way i g n L F q) : Way i g n { L with trace := [] } F q :=
  ⟨⟨h.serves.lead, h.serves.start, h.serves.next, h.serves.batch⟩, ⟨h.hears.start, h.hears.term, h.hears.follows⟩,
    ⟨h.fits.matching, h.fits.own⟩, h.id, h.pos, h.le, h.goal, ⟨h.req.type, h.req.term, h.req.dst, h.req.idx, h.req.prev, h.req.entries⟩,
    h.more, h.record⟩

/-- The member has what the leader had below `g` when it began. -/
def HasTo (g : Nat) (L0 F : Srv) : Prop := F.log.start = 1 ∧ ∀ j < g, F.log.get? j = L0.log.get? j

theorem reaches_accepted {L0 F F' : Srv} {g : Nat} {q : Req} {a : Resp} (h0 : ∀ j < g, L.log.get? j = L0.log.get? j)
    (h : Way i g n L F q) (hd : Answer L F q a F') (ha : a.accepted = true) (hn : a.nextIdx = n + q.entries.length)
    (hag : AgreeTo (n + q.entries.length) L F') (hl : F'.log = F.log ∨ F'.log.next = n + q.entries.length)
    (next : n + q.entries.length < g → ∀ L2 F2 q', (∀ j < g, L2.log.get? j = L0.log.get? j) →
      Way i g (n + q.entries.length) L2 F2 q' → AgreeTo (n + q.entries.length) L2 F2 → Reaches i (HasTo g L0) L2 F2 q') :
    Reaches i (HasTo g L0) L F q := by
  by_cases hlt : n + q.entries.length < g
  · have hw := h.trace
    obtain ⟨p, hp, hpn⟩ := hw.record
    have hg := h.goal
    have hpos := h.pos
    obtain ⟨L1, e1, e2, p', q', e3, e4, e5, e6, e7⟩ := accepted_run hw.serves hp rfl hd.type hd.aterm (hd.src.trans h.id) ha
      (by omega) (show a.nextIdx < L.log.next by omega)
    rw [hn] at e2 e4 e6 e7
    refine .more hd.run hd.answers (by rw [h.req.type]; exact e1) e5 fun L2 F2 hL2 hF2 => ?_
    have hle : n + q.entries.length ≤ L.log.next := by omega
    obtain ⟨w, k⟩ := Way.on hw.serves hw.goal hw.fits e2 ⟨p', e3, e4⟩ (by omega) hle e6 e7 hle hag hl (hd.id.trans h.id) ⟨hd.start, Nat.le_of_eq hd.term, fun _ => hd.role⟩ hL2 hF2
    refine next hlt L2 F2 q' ?_ w (k _ hle hag)
    intro j hj
    rw [← h0 j hj, hL2.get (by rw [e2.log]; exact h.serves.start) (by rw [e2.log]; show j < L.log.next; omega), e2.log]
  · refine .last hd.run ⟨hd.start, fun j hj => ?_⟩
    rw [hag j (by omega), h0 j hj]

/-- From the point where the logs agree up to what is sent. -/
theorem reaches_agreed {L0 : Srv} {g : Nat} : ∀ (m n : Nat) (L F : Srv) (q : Req), g - n ≤ m →
    (∀ j < g, L.log.get? j = L0.log.get? j) → Way i g n L F q → AgreeTo n L F → Reaches i (HasTo g L0) L F q := by
  intro m
  induction m with
  | zero =>
    intro n L F q hm h0 h hag
    obtain ⟨a, F', hd, ⟨c1, c2, c3, c4⟩ | ⟨_, _, c3, _⟩⟩ := member_run h.serves h.hears h.fits h.pos h.le h.req
    · exact reaches_accepted h0 h hd c1 c2 c3 c4 fun hlt => absurd hlt (by omega)
    · exact absurd hag c3
  | succ m ih =>
    intro n L F q hm h0 h hag
    obtain ⟨a, F', hd, ⟨c1, c2, c3, c4⟩ | ⟨_, _, c3, _⟩⟩ := member_run h.serves h.hears h.fits h.pos h.le h.req
    · refine reaches_accepted h0 h hd c1 c2 c3 c4 fun hlt L2 F2 q' h3 hw hag' => ih _ L2 F2 q' ?_ h3 hw hag'
      have := List.length_pos_iff.2 (h.more (by omega))
      omega
    · exact absurd hag c3

theorem reaches_any {L0 : Srv} {g : Nat} : ∀ (m n : Nat) (L F : Srv) (q : Req), n ≤ m →
    (∀ j < g, L.log.get? j = L0.log.get? j) → Way i g n L F q → Reaches i (HasTo g L0) L F q := by
  intro m
  induction m with
  | zero => intro n L F q hm _ h; exact absurd h.pos (by omega)
  | succ m ih =>
    intro n L F q hm h0 h
    obtain ⟨a, F', hd, ⟨c1, c2, c3, c4⟩ | ⟨c1, c2, c3, c4⟩⟩ := member_run h.serves h.hears h.fits h.pos h.le h.req
    · exact reaches_accepted h0 h hd c1 c2 c3 c4 fun _ L2 F2 q' h3 hw hag' => reaches_agreed _ _ L2 F2 q' (Nat.le_refl _) h3 hw hag'
    · have hw := h.trace
      obtain ⟨p, hp, hpn⟩ := hw.record
      obtain ⟨L1, e1, e2, p', q', e3, e4, e5, e6, e7⟩ := refused_run hw.serves hp rfl hd.type hd.aterm (hd.src.trans h.id) c1
        (by rw [hpn]; exact c2)
      rw [hpn] at e2 e4 e6 e7
      refine .more hd.run hd.answers (by rw [h.req.type]; exact e1) e5 fun L2 F2 hL2 hF2 => ?_
      have hg := h.goal
      have hle := h.le
      have hlow : 0 < lowered n a.nextIdx ∧ lowered n a.nextIdx < n := by unfold lowered; split <;> omega
      obtain ⟨w, _⟩ := Way.on hw.serves hw.goal hw.fits e2 ⟨p', e3, e4⟩ hlow.1 (show lowered n a.nextIdx ≤ L.log.next by omega)
        e6 e7 (c := 0) (Nat.zero_le _) (fun j hj => absurd hj (by omega)) (.inl c4) (hd.id.trans h.id) ⟨hd.start, Nat.le_of_eq hd.term, fun _ => hd.role⟩ hL2 hF2
      refine ih _ L2 F2 q' (by omega) ?_ w
      intro j hj
      rw [← h0 j hj, hL2.get (by rw [e2.log]; exact h.serves.start) (by rw [e2.log]; show j < L.log.next; omega), e2.log]

theorem Reaches.mono {A B : Srv → Prop} (h : ∀ F, A F → B F) {F : Srv} {q : Req} (hr : Reaches i A L F q) : Reaches i B L F q := by
  induction hr with
  | last h1 h2 => exact .last h1 (h _ h2)
  | more h1 h2 h3 h4 _ ih => exact .more h1 h2 h3 h4 ih

theorem HasTo.prefix {F : Srv} (hs : L.log.start = 1) (h : HasTo L.log.next L F) : L.log.ents <+: F.log.ents := by
  have hlen : L.log.ents.length ≤ F.log.ents.length := by
    by_cases h0 : L.log.ents.length = 0
    · omega
    obtain ⟨e, he⟩ := Log.get?_some (l := L.log) (i := L.log.next - 1) (by unfold Log.next; omega) (by unfold Log.next; omega)
    rw [← h.2 (L.log.next - 1) (by unfold Log.next; omega)] at he
    have := (Log.get?_lt he).2
    unfold Log.next at this
    rw [h.1, hs] at this
    omega
  rw [List.prefix_iff_eq_take]
  refine List.ext_getElem? fun k => ?_
  rw [List.getElem?_take]
  split
  · rename_i hk
    have := h.2 (k + 1) (by unfold Log.next; omega)
    unfold Log.get? at this
    rw [h.1, hs, if_neg (by omega), if_neg (by omega)] at this
    exact this.symm
  · rename_i hk
    exact List.getElem?_eq_none (by omega)

/-- Taking 0 as the next index for the end of the log. -/
def fillNext (m : Nat) (p : Peer) : Peer := if p.nextIdx = 0 then { p with nextIdx := m } else p

theorem setPeer_fill (s : Srv) (k : Int) (m : Nat) :
    ((s.setPeer (.member k) (fillNext m)).setPeer (.member k) fun p => { p with busy := true }).setPeer (.member k) (fillNext m) =
      (s.setPeer (.member k) fun p => { p with busy := true }).setPeer (.member k) (fillNext m) := by
  have : ∀ f g : Peer → Peer, (∀ p, (f p).id = p.id) → ∀ s : Srv, (s.setPeer (.member k) f).setPeer (.member k) g =
      s.setPeer (.member k) (g ∘ f) := by
    intro f g hf s
    show ({ s with peers := (s.peers.map fun p => if p.id == k then f p else p).map fun p => if p.id == k then g p else p } : Srv) =
      { s with peers := s.peers.map fun p => if p.id == k then (g ∘ f) p else p }
    rw [List.map_map]
    congr 1
    refine List.map_congr_left fun p _ => ?_
    show (if (if p.id == k then f p else p).id == k then g (if p.id == k then f p else p) else if p.id == k then f p else p) = _
    by_cases h : (p.id == k) = true
    · rw [if_pos h, hf, if_pos h, if_pos h]; rfl
    · rw [if_neg h, if_neg h, if_neg h]
  have hid : ∀ p, (fillNext m p).id = p.id := by intro p; unfold fillNext; split <;> rfl
  rw [this _ _ hid, this _ _ (by intro p; exact hid p), this _ _ (by intro p; rfl)]
  congr 1
  funext p
  show fillNext m { fillNext m p with busy := true } = fillNext m { p with busy := true }
  unfold fillNext
  by_cases h : p.nextIdx = 0
  · rw [if_pos h, if_pos (show ({ p with busy := true } : Peer).nextIdx = 0 from h)]
    split <;> rfl
  · rw [if_neg h]

/-- It does not matter whether the next index 0 is replaced before. -/
theorem requestAppend_fill (s : Srv) (k : Int) {p : Peer} (hp : s.findPeer k = some p) (hb : p.busy = false) :
    requestAppend (.member k) (s.setPeer (.member k) (fillNext s.log.next)) = requestAppend (.member k) s := by
  have hid : ∀ p, (fillNext s.log.next p).id = p.id := by intro p; unfold fillNext; split <;> rfl
  have h1 : (s.setPeer (.member k) (fillNext s.log.next)).peer (.member k) = some (fillNext s.log.next p) := by
    show Srv.findPeer _ k = _
    rw [find_setPeer _ _ _ hid, hp]; rfl
  have h2 : (fillNext s.log.next p).busy = false := by unfold fillNext; split <;> exact hb
  unfold requestAppend
  rw [run_bind_ok (getPeer_some h1), run_bind_ok (getPeer_some (show s.peer (.member k) = some p from hp)), h2, hb]
  simp only [Bool.false_eq_true, if_false]
  rw [bind_modPeer, bind_modPeer]
  have h3 : createAppendReq (.member k) ((s.setPeer (.member k) (fillNext s.log.next)).setPeer (.member k) fun p => { p with busy := true }) =
      createAppendReq (.member k) (s.setPeer (.member k) fun p => { p with busy := true }) := by
    unfold createAppendReq
    rw [bind_get, bind_get, bind_modPeer, bind_modPeer]
    exact congrArg (fun st => (getPeer (.member k) >>= fun p => if s.log.next ≤ p.nextIdx - 1 then die (-1)
      else if 0 < p.nextIdx - 1 ∧ p.nextIdx - 1 < s.log.start - 1 then
        createSyncSnapshotReq (.member k) (p.nextIdx - 1) s.term s.quickCommit
      else appendReqFrom (.member k) (p.nextIdx - 1) : R Req) st) (setPeer_fill s k s.log.next)
  rcases h4 : createAppendReq (.member k) (s.setPeer (.member k) fun p => { p with busy := true }) with ⟨e | q, s'⟩
  · rw [run_bind_err h4, run_bind_err (h3.trans h4)]
  · rw [run_bind_ok h4, run_bind_ok (h3.trans h4)]

/-- C79: a heartbeat of a leader to a member that is behind, or has other entries, brings the member up to date: the leader sends
one request, and when messages between the two arrive, then after finitely many of them the log of the member begins with all that
the log of the leader contained at the time of the heartbeat. Whatever else happens to the two in between, as long as the leader goes
on leading, the member does not change its term or log for other reasons, and neither has discarded entries. The logs match at the
beginning (see `cluster_member_catches_up_partial`). Partial: for logs that have not been compacted. -/
theorem member_catches_up_partial (L F : Srv) (p : Peer) (hL : Serves L) (hF : Hears L F) (hm : Fits L F)
    (hp : L.findPeer F.id = some p) (hidle : p.busy = false) :
    ∃ L' q, (Input.hbTimeout F.id).run { L with trace := [] } = (.ok ⟨⟩, L') ∧ sendsTo F.id L'.trace = [q] ∧
      ∀ L'' F', LeadsOn F.id L' L'' → FollowsOn F F' → Reaches F.id (fun F => L.log.ents <+: F.log.ents) L'' F' q := by
  have hi : F.id ∈ L.peers.map Peer.id :=
    List.mem_map.2 ⟨p, List.mem_of_find?_eq_some hp, by have := List.find?_some hp; simpa using this⟩
  have hid : ∀ p, (fillNext L.log.next p).id = p.id := by intro p; unfold fillNext; split <;> rfl
  have hnext : 0 < L.log.next := by unfold Log.next; rw [hL.start]; omega
  have hn : 0 < (fillNext L.log.next p).nextIdx := by
    unfold fillNext
    split
    · exact hnext
    · omega
  have hle : (fillNext L.log.next p).nextIdx ≤ L.log.next := by
    unfold fillNext
    split
    · exact Nat.le_refl _
    · exact hL.next p (List.mem_of_find?_eq_some hp)
  let s0 : Srv := { L with trace := [] }
  let s1 : Srv := s0.setPeer (.member F.id) fun p => { p with hbArmed := false }
  have hf1 : s1.findPeer F.id = some { p with hbArmed := false } := by
    show (s0.setPeer _ _).findPeer _ = _
    rw [find_setPeer _ _ _ (by intro p; rfl), show s0.findPeer F.id = some p from hp]; rfl
  have hv1 : View F.id (fillNext L.log.next p).nextIdx L (s1.setPeer (.member F.id) (fillNext L.log.next)) := by
    refine ⟨rfl, rfl, rfl, rfl, hL.lead, ?_, ?_, ⟨fillNext L.log.next { p with hbArmed := false }, ?_, ?_, .inl ⟨?_, rfl⟩⟩⟩
    · rw [ids_setPeer _ _ _ hid]
      exact ids_setPeer s0 _ _ fun _ => rfl
    · refine bounds_setPeer (bounds_setPeer (s := s0) hL.next fun _ h => h) fun x hx => ?_
      unfold fillNext
      split
      · exact Nat.le_refl _
      · exact hx
    · rw [find_setPeer _ _ _ hid, hf1]; rfl
    · unfold fillNext
      by_cases h : p.nextIdx = 0
      · rw [if_pos h, if_pos (show ({ p with hbArmed := false } : Peer).nextIdx = 0 from h)]
      · rw [if_neg h, if_neg (show ¬({ p with hbArmed := false } : Peer).nextIdx = 0 from h)]
    · unfold fillNext; split <;> exact hidle
  have hrun : (Input.hbTimeout F.id).run s0 = (requestAppend (.member F.id) >>= fun _ =>
      modPeer (.member F.id) fun p => if p.hbEnabled then { p with hbArmed := true } else p) s1 := by
    show handleHbTimeout (.member F.id) s0 = _
    unfold handleHbTimeout
    rw [bind_modPeer, bind_get, if_pos (show s1.role = .leader from hL.lead)]
  obtain ⟨b, s2, e1, e2, e3⟩ := view_request hL hn hi hv1
  rw [show L.log.next = s1.log.next from rfl, requestAppend_fill s1 F.id hf1 hidle] at e1
  rw [run_bind_ok e1] at hrun
  have hv := e2.setPeer F.id (fun p => if p.hbEnabled then { p with hbArmed := true } else p) (by intro p; split <;> rfl)
    (by intro p h; split <;> exact h) (by intro _ p h; split <;> exact ⟨h, rfl⟩)
  obtain ⟨p2, c1, c2⟩ := e3 rfl
  obtain ⟨p3, d1, d2, d3⟩ := e2.record
  rw [c1] at d1
  cases d1
  rcases d3 with d3 | ⟨_, q, d3, d4, d5⟩
  · rw [c2] at d3; cases d3.1
  refine ⟨_, q, hrun, d3, fun L'' F' hL' hF' => ?_⟩
  obtain ⟨pv, v1, v2, _⟩ := hv.record
  obtain ⟨w, _⟩ := Way.on (F := F) hL (Nat.le_refl _) hm hv ⟨pv, v1, v2⟩ hn hle d4 d5 (c := 0) (Nat.zero_le _)
    (fun j hj => absurd hj (by omega)) (.inl rfl) rfl hF hL' hF'
  refine (reaches_any _ _ L'' F' q (Nat.le_refl _) (fun j hj => ?_) w).mono fun F h => HasTo.prefix hL.start h
  rw [hL'.get (by rw [hv.log]; exact hL.start) (by rw [hv.log]; exact hj), hv.log]

/-- A leader of term 3 that has not heard from the servers 2 and 3. -/
def leader3 : Srv :=
  { id := 1, config := conf3, term := 3, role := .leader, log := ⟨1, [⟨1, .app 1⟩, ⟨3, .app 2⟩, ⟨3, .app 3⟩, ⟨3, .app 4⟩]⟩,
    peers := [{ cfg := ⟨2, 2⟩, nextIdx := 5, hbInterval := 125 }, { cfg := ⟨3, 3⟩, nextIdx := 5, hbInterval := 125 }] }

/-- A server that has an entry of a leader of term 2 that nobody else has. -/
def strayed : Srv :=
  { id := 2, config := conf3, term := 2, role := .leader, log := ⟨1, [⟨1, .app 1⟩, ⟨2, .app 9⟩]⟩ }

/-- The hypotheses can be met by a member whose log is shorter and has another entry at 2. The first request, about the entries
behind 4, is refused. -/
example : Serves leader3 ∧ Hears leader3 strayed ∧ Fits leader3 strayed ∧ (∃ p, leader3.findPeer strayed.id = some p ∧
    p.busy = false) ∧ ¬ leader3.log.ents <+: strayed.log.ents := by
  have hF : ∀ k b, strayed.log.get? k = some b → k = 1 ∧ b = ⟨1, .app 1⟩ ∨ k = 2 ∧ b = ⟨2, .app 9⟩ := by
    intro k b h
    have := Log.get?_lt h
    have h1 : 1 ≤ k := this.1
    have h2 : k < 3 := this.2
    rcases (show k = 1 ∨ k = 2 by omega) with rfl | rfl
    · exact .inl ⟨rfl, (Option.some.inj h).symm⟩
    · exact .inr ⟨rfl, (Option.some.inj h).symm⟩
  refine ⟨⟨rfl, rfl, by decide, by decide⟩, ⟨rfl, by decide, fun h => absurd h (by decide)⟩, ⟨?_, ?_⟩, ⟨_, rfl, rfl⟩, by decide⟩
  · intro k a b h1 h2 h3 j hj
    rcases hF k b h2 with ⟨rfl, rfl⟩ | ⟨rfl, rfl⟩
    · rcases (show j = 0 ∨ j = 1 by omega) with rfl | rfl <;> rfl
    · have : a = ⟨3, .app 2⟩ := (Option.some.inj h1).symm
      rw [this] at h3
      cases h3
  · intro k b h1 h2
    rcases hF k b h1 with ⟨rfl, rfl⟩ | ⟨rfl, rfl⟩ <;> cases h2

end Cs.Raft
