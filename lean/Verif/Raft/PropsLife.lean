import Verif.Raft.PropsBusy
import Verif.Raft.PropsMember

/-!
# C100: whoever handles an answer still exists

`peer::send_req` (peer.cxx 21-27) hands the connection a handler that has the plain pointer `this` of the peer, and
`handle_rpc_result` (29-50) writes to the peer when the answer arrives or the request fails. The connection keeps itself alive until
then (asio_service.cxx 402), not the peer. The peer of a member exists as long as it is in `peers_`, that of the server that is to join
as long as it is `srv_to_join_`; both hold the only pointers that outlive a call (raft_server.cxx 135, 742, raft_server_req_handlers.cxx
508; the task that repeats a request, raft_server_resp_handlers.cxx 460, has one of its own). A peer is put into `peers_` only for an id
that is not there (705-716), so that an id which stays in `peers_` stays with its peer.
-/

namespace Cs.Raft
open Cs

/-! ## Specification -/

/-- The peer for the requests to member `j` exists. -/
def Srv.hasPeer (s : Srv) (j : Int) : Prop := ∃ p ∈ s.peers, p.id = j

/-- The peer for the requests to the server `j` that is to join exists. -/
def Srv.hasJoinee (s : Srv) (j : Int) : Prop := ∃ p, s.srvToJoin = some p ∧ p.id = j

/-- Inputs by which server `j` leaves without a configuration being put into force: an invitation to join another cluster, and the
failure of the request to `j` to leave. -/
def Input.unseats (j : Int) : Input → Bool
  | .req r => r.type == .joinReq
  | .extErr _ r => r.type == .leaveReq && r.dst == j
  | _ => false

/-! ## The relation -/

variable {j : Int}

/-- The peer of `j` stays unless a configuration without `j` is put into force. -/
def Lf (j : Int) (s s' : Srv) : Prop :=
  ∃ es, s'.trace = s.trace ++ es ∧ (es.any (Eff.drops j) = true ∨ (s.hasPeer j → s'.hasPeer j))

theorem lfPo (j : Int) : PO (Lf j) where
  refl s := ⟨[], (List.append_nil _).symm, .inr id⟩
  trans {a b c} h1 h2 := by
    obtain ⟨f1, e1, h1⟩ := h1
    obtain ⟨f2, e2, h2⟩ := h2
    refine ⟨f1 ++ f2, by rw [e2, e1, List.append_assoc], ?_⟩
    rw [List.any_append]
    rcases h1 with h1 | h1
    · rw [h1]; exact .inl rfl
    rcases h2 with h2 | h2
    · rw [h2, Bool.or_true]; exact .inl rfl
    exact .inr fun h => h2 (h1 h)

theorem hasPeer_map {s : Srv} {f : Peer → Peer} (hf : ∀ p, (f p).cfg = p.cfg) (h : s.hasPeer j) : ({ s with peers := s.peers.map f } : Srv).hasPeer j := by
  obtain ⟨p, hp, hj⟩ := h
  exact ⟨f p, List.mem_map.mpr ⟨p, hp, rfl⟩, by show (f p).cfg.id = j; rw [hf]; exact hj⟩

theorem lf_same {s s' : Srv} (h1 : s'.trace = s.trace) (h2 : s'.peers = s.peers) : Lf j s s' :=
  ⟨[], by rw [h1, List.append_nil], .inr fun ⟨p, hp, hj⟩ => ⟨p, by rw [h2]; exact hp, hj⟩⟩

theorem lf_emit (e : Eff) : Pres (Lf j) (emit e) := fun s => ⟨[e], rfl, .inr fun h => h⟩

theorem lf_modPeer (r : PeerRef) (f : Peer → Peer) (hf : ∀ p, (f p).cfg = p.cfg) : Pres (Lf j) (modPeer r f) := fun s => by
  cases r with
  | member id =>
    refine ⟨[], (List.append_nil _).symm, .inr fun h => ?_⟩
    refine hasPeer_map (f := fun p => if p.id == id then f p else p) (fun p => ?_) h
    show (if (p.id == id) = true then f p else p).cfg = _
    split
    · exact hf p
    · rfl
  | joining => exact lf_same rfl rfl
theorem lf_getPeer (r : PeerRef) : Pres (Lf j) (getPeer r) := by
  unfold getPeer
  pres (lfPo j) using pres_ite
theorem lf_die {α : Type} (c : Int) : Pres (Lf j) (die c : R α) := by
  unfold die
  pres (lfPo j) using lf_emit
theorem lf_termAt (i : Nat) : Pres (Lf j) (termAt i) := by
  unfold termAt
  pres (lfPo j) using lf_die
theorem lf_termForLog (i : Nat) : Pres (Lf j) (termForLog i) := by
  unfold termForLog
  pres (lfPo j) using lf_die, lf_termAt
theorem lf_entriesFrom (i : Nat) : Pres (Lf j) (entriesFrom i) := by
  unfold entriesFrom
  pres (lfPo j) using lf_die
theorem lf_chooseSnap (r : PeerRef) (i : Nat) : Pres (Lf j) (chooseSnap r i) := by
  unfold chooseSnap
  pres (lfPo j) using lf_die, lf_getPeer, lf_modPeer
  rfl
theorem lf_createSync (r : PeerRef) (i t c : Nat) : Pres (Lf j) (createSyncSnapshotReq r i t c) := by
  unfold createSyncSnapshotReq
  pres (lfPo j) using lf_die, lf_getPeer, lf_chooseSnap
theorem lf_appendReqFrom (r : PeerRef) (i : Nat) : Pres (Lf j) (appendReqFrom r i) := by
  unfold appendReqFrom
  pres (lfPo j) using lf_termForLog, lf_getPeer, lf_entriesFrom
theorem lf_createAppendReq (r : PeerRef) : Pres (Lf j) (createAppendReq r) := by
  unfold createAppendReq
  pres (lfPo j) using lf_die, lf_getPeer, lf_modPeer, lf_createSync, lf_appendReqFrom
  all_goals rfl
theorem lf_requestAppend (r : PeerRef) : Pres (Lf j) (requestAppend r) := by
  unfold requestAppend
  pres (lfPo j) using lf_getPeer, lf_modPeer, lf_createAppendReq, lf_emit
  all_goals rfl

instance lfWalk0 (j : Int) : Walk0 (Lf j) where
  po := lfPo j
  calm h1 _ h2 _ := lf_same h1 h2
  joinee _ := lf_same rfl rfl
  peers {s f} hf := ⟨[], (List.append_nil _).symm, .inr fun h => hasPeer_map (fun p => (hf p).1) h⟩
  say {s e} _ := lf_emit e s
  ask i := lf_requestAppend _

theorem lf_snap (i : Nat) : Pres (Lf j) (snapshotAndCompact i) := by
  unfold snapshotAndCompact startSnapshot
  pres (lfPo j) using wk_confForSnap, wk_termAt, lf_emit, wk_mod
  all_goals first | exact lf_same rfl rfl | wk

theorem lf_done (q : Snap) (ok : Bool) : Pres (Lf j) (onSnapshotCompleted q ok) := by
  unfold onSnapshotCompleted
  pres (lfPo j) using wk_logCompact, wk_mod
  all_goals first | exact lf_same rfl rfl | wk

theorem lf_leaderPeer (i : Int) : Pres (Lf j) (leaderPeer i) := by
  unfold leaderPeer enableHb
  pres (lfPo j) using lf_modPeer
  all_goals rfl

theorem lf_lead : Pres (Lf j) becomeLeader := by
  intro s
  rw [run_crowned]
  have h0 : Lf j s s.crowned := ⟨[.lead s.term], rfl, .inr fun h => h⟩
  have hr : Pres (Lf j) (do
    let ids ← peerIds
    forEach leaderPeer ids
    initialConf
    emit (.event .becomeLeader)
    requestAppendAll : R Unit) := by
    pres (lfPo j) using wk_peerIds, lf_leaderPeer, wk_initialConf, lf_emit, wk_requestAppendAll
  exact (lfPo j).trans h0 (hr s.crowned)

/-! ## Configurations -/

/-- Whatever happens behind a configuration without `j`. -/
def Grow (s s' : Srv) : Prop := ∃ es, s'.trace = s.trace ++ es

theorem growPo : PO Grow where
  refl s := ⟨[], (List.append_nil _).symm⟩
  trans {a b c} h1 h2 := by
    obtain ⟨f1, e1⟩ := h1
    obtain ⟨f2, e2⟩ := h2
    exact ⟨f1 ++ f2, by rw [e2, e1, List.append_assoc]⟩

theorem Lf.grow {s s' : Srv} (h : Lf j s s') : Grow s s' := let ⟨es, h, _⟩ := h; ⟨es, h⟩

instance growWalk0 : Walk0 Grow where
  po := growPo
  calm h0 h1 h2 h3 := ((lfWalk0 0).calm h0 h1 h2 h3).grow
  joinee hf := ((lfWalk0 0).joinee hf).grow
  peers hf := ((lfWalk0 0).peers hf).grow
  say h := ((lfWalk0 0).say h).grow
  ask i s := ((lfWalk0 0).ask i s).grow

theorem grow_reconfigure (c : Config) : Pres Grow (reconfigure c) :=
  wk_reconfigure0 (fun _ _ _ _ => ⟨[], (List.append_nil _).symm⟩) (fun _ _ => ⟨[], (List.append_nil _).symm⟩) c

theorem lf_drop {α : Type} {e : Eff} {k : Unit → R α} (hk : Pres Grow (k ⟨⟩)) (he : e.drops j = true) : Pres (Lf j) (emit e >>= k) := by
  intro s
  obtain ⟨es, h⟩ := hk { s with trace := s.trace ++ [e] }
  refine ⟨e :: es, ?_, .inl (by rw [List.any_cons, he]; rfl)⟩
  show _ = s.trace ++ ([e] ++ es)
  rw [← List.append_assoc]
  exact h

theorem lf_add (s : Srv) (p : Peer) : Lf j s { s with peers := s.peers ++ [p] } :=
  ⟨[], (List.append_nil _).symm, .inr fun ⟨q, hq, hj⟩ => ⟨q, List.mem_append_left _ hq, hj⟩⟩

theorem lf_filter (s : Srv) (i : Int) (h : i ≠ j) : Lf j s { s with peers := s.peers.filter fun p => p.id != i } :=
  ⟨[], (List.append_nil _).symm, .inr fun ⟨q, hq, hj⟩ => ⟨q, List.mem_filter.mpr ⟨hq, by rw [hj]; simpa using fun e => h e.symm⟩, hj⟩⟩

theorem lf_removePeer (c : Config) (i : Int) (h : i ≠ j) : Pres (Lf j) (removePeer c i) := by
  unfold removePeer
  have h1 : Pres (Lf j) (modify fun s : Srv => { s with peers := s.peers.filter fun p => p.id != i } : R PUnit) :=
    fun s => lf_filter s i h
  pres (lfPo j) using lf_emit, lf_die, h1

theorem lf_removeAll (c : Config) : ∀ is : List Int, (∀ i ∈ is, i ≠ j) → Pres (Lf j) (forEach (removePeer c) is)
  | [], _ => pres_pure (lfPo j) _
  | i :: is, h => by
    unfold forEach
    exact pres_bind (lfPo j) (lf_removePeer c i (h i (List.mem_cons_self ..))) fun _ =>
      lf_removeAll c is fun k hk => h k (List.mem_cons_of_mem _ hk)

theorem lf_reconfigure (c : Config) (hc : c.has j = true) : Pres (Lf j) (reconfigure c) := by
  unfold reconfigure
  refine pres_getBind fun s => ?_
  refine pres_bind (lfPo j) (pres_forEach (lfPo j) (wk_addPeer0 fun s p _ _ => lf_add s p) _) (fun _ => ?_) s
  refine pres_bind (lfPo j) (lf_removeAll c _ fun i hi => ?_) fun _ => wk_mod fun s => lf_same rfl rfl
  rintro rfl
  rcases List.mem_append.mp hi with h | h
  · have := (List.mem_filter.mp h).2
    rw [hc] at this
    cases this
  · split at h
    · cases h
    · next hs =>
      rw [List.mem_singleton] at h
      exact hs (h ▸ hc)

theorem lf_commitConf (c : Config) : Pres (Lf j) (commitConf c) := by
  by_cases hc : c.has j = true
  · unfold commitConf
    have h := lf_reconfigure c hc
    pres (lfPo j) using lf_emit, wk_mod, h
    all_goals wk
  · unfold commitConf
    refine lf_drop ?_ (by show (!c.has j) = true; rw [Bool.not_eq_true] at hc; rw [hc]; rfl)
    pres growPo using wk_mod, grow_reconfigure
    all_goals wk

theorem lf_installSnapshot (q : Snap) : Pres (Lf j) (installSnapshot q) := by
  by_cases hc : q.config.has j = true
  · unfold installSnapshot
    have h := lf_reconfigure q.config hc
    pres (lfPo j) using wk_die, wk_logCompact, wk_stop, lf_emit, wk_mod, h, wk_saveState, wk_restart
    all_goals wk
  · have hd : (Eff.applySnp q).drops j = true := by
      show (!q.config.has j) = true; rw [Bool.not_eq_true] at hc; rw [hc]; rfl
    unfold installSnapshot
    pres (lfPo j) using wk_die, wk_logCompact, wk_stop, lf_drop
    pres growPo using wk_die, wk_emit, wk_mod, grow_reconfigure, wk_saveState, wk_restart
    all_goals wk

theorem lfWalk {x : Input} (hx : x.unseats j = false) : Walk (Lf j) x where
  sync i t c := by pres (lfPo j) using lf_createSync, lf_emit
  snap i _ := lf_snap i
  lead := lf_lead
  done q ok _ := lf_done q ok
  invite t c r h1 h2 h3 := lf_same rfl rfl
  conf := lf_commitConf
  inst := lf_installSnapshot
  join r h1 h2 := by
    subst h1
    have hx : (r.type == .joinReq) = false := hx
    rw [h2] at hx
    cases hx
  force {s} p r h1 h2 _ := by
    subst h1
    have hx : (r.type == .leaveReq && r.dst == j) = false := hx
    rw [h2] at hx
    have hx : (r.dst == j) = false := hx
    exact lf_filter s r.dst (by simpa using hx)

theorem lf_rpcResult (r : PeerRef) (ty : MsgType) (ok : Bool) : Pres (Lf j) (rpcResult r ty ok) := by
  unfold rpcResult
  pres (lfPo j) using lf_modPeer
  all_goals (first | rfl | (split <;> rfl))

theorem lf_run {x : Input} (hx : x.unseats j = false) : Pres (Lf j) x.run := by
  have hw := lfWalk hx
  have h : Pres (Lf j) x.rest := wk_rest (x := x) (Q := Lf j)
  cases x with
  | peerResp ty r => exact pres_bind (lfPo j) (lf_rpcResult _ _ _) fun _ => h
  | extResp p ty r => exact pres_bind (lfPo j) (lf_rpcResult _ _ _) fun _ => h
  | peerErr r => exact lf_rpcResult _ _ _
  | extErr p r => exact pres_bind (lfPo j) (lf_rpcResult _ _ _) fun _ => h
  | _ => exact h

/-! ## C100 -/

/-- C100 (partial): the peer of a member exists as long as no configuration without the member is put into force, the server is not
invited to another cluster, and the member is not removed because it does not answer (`Input.unseats`). So answers to its requests
find it, whenever they arrive. What is missing: `removed_while_asked`, `joinee_lost`. -/
theorem peer_exists_partial {s s' : Srv} {xs : List Input} {fx : List Eff} (h : Alive s xs fx s') (hj : s.hasPeer j)
    (hx : ∀ x ∈ xs, x.unseats j = false) (hd : ∀ e ∈ fx, e.drops j = false) : s'.hasPeer j := by
  induction h with
  | nil => exact hj
  | @step s1 s2 xs fx x res ha hr hres ih =>
    have h1 := ih (fun y hy => hx y (List.mem_append_left _ hy)) (fun e he => hd e (List.mem_append_left _ he))
    have h2 := lf_run (hx x (by simp)) { s1 with trace := [] }
    rw [hr] at h2
    obtain ⟨es, h3, h4⟩ := h2
    have h3 : s2.trace = es := by rw [h3]; rfl
    subst h3
    rcases h4 with h4 | h4
    · obtain ⟨e, he, h5⟩ := List.any_eq_true.mp h4
      rw [hd e (List.mem_append_right _ he)] at h5
      cases h5
    · exact h4 h1

example : ∃ fx s, Alive started [.electionTimeout, voteRespOf 2 1 true, cliReq 7, appendRespOf 2 1 2] fx s ∧ started.hasPeer 2 ∧ s.hasPeer 2 := by
  obtain ⟨fx, s, h, hp⟩ := live_check (s := started) (xs := [.electionTimeout, voteRespOf 2 1 true, cliReq 7, appendRespOf 2 1 2])
    (P := fun fx _ => fx.all fun e => !e.drops 2) (by decide +kernel)
  have h0 : started.hasPeer 2 := by
    have : started.peers.any (fun p => p.id == 2) = true := by decide +kernel
    obtain ⟨p, hp, h⟩ := List.any_eq_true.mp this
    exact ⟨p, hp, by simpa using h⟩
  refine ⟨fx, s, h, h0, peer_exists_partial h h0 (by decide +kernel) fun e he => ?_⟩
  have := List.all_eq_true.mp hp e he
  simpa using this

/-- C100 fails for members, in every state: when a configuration is applied, the peers of all servers that are not in it are gone,
whether or not requests to them are outstanding. -/
theorem removed_peer_lost {c : Setup} {cfg : Config} {xs : List Input} {fx : List Eff} {d : Disk} {s : Srv} {t : Nat}
    {conf : Config} (h : Hist c (Node.fresh cfg) xs fx ⟨d, some s⟩) (hc : s.smCommit < s.quickCommit)
    (hn : s.smCommit < s.log.next - 1) (he : s.log.get? (s.smCommit + 1) = some ⟨t, .conf conf⟩)
    (hl : s.config.logIdx < conf.logIdx) (hm : ∃ x ∈ conf.servers, x.id = s.id) (hj : ∀ x ∈ conf.servers, x.id ≠ j) :
    ¬ (Input.apply.run { s with trace := [] }).2.hasPeer j := by
  rintro ⟨p, hp, hpj⟩
  obtain ⟨-, -, h1, -⟩ := apply_configuration_member h hc hn he hl hm _ rfl
  obtain ⟨-, x, hx, hxj⟩ := (h1 j).mp (List.mem_map.mpr ⟨p, hp, hpj⟩)
  exact hj x hx hxj

/-- A request to server `j`. -/
def Eff.sends (j : Int) : Eff → Bool
  | .send r => r.dst == j
  | _ => false

/-- Server 1 is elected; server 3 is asked to leave and agrees; the configuration without it is stored by server 2 and applied. -/
def removeThree : List Input := [.electionTimeout, voteRespOf 2 1 true, appendRespOf 2 1 2, appendRespOf 3 1 2, .apply, .req (rmReqOf 3), leftOf 3, appendRespOf 2 1 3]

/-- C100 fails: a leader removes server 3 while an append request to it is not answered. -/
theorem removed_while_asked : ∃ fx s, Alive started (removeThree ++ [.apply]) fx s ∧ answered 3 (removeThree ++ [.apply]) < asked 3 fx ∧ ¬ s.hasPeer 3 := by
  obtain ⟨fx, s, h, hp⟩ := live_check (s := started) (xs := removeThree ++ [.apply])
    (P := fun fx s => decide (answered 3 (removeThree ++ [.apply]) < asked 3 fx) && s.peers.all fun p => p.id != 3) (by decide +kernel)
  rw [Bool.and_eq_true] at hp
  refine ⟨fx, s, h, of_decide_eq_true hp.1, fun ⟨p, hm, hj⟩ => ?_⟩
  have := List.all_eq_true.mp hp.2 p hm
  rw [hj] at this
  cases this

/-- The hypotheses of `removed_peer_lost` are met by such a server. -/
example : ∃ d s fx t conf, Hist node1 (Node.fresh conf3) removeThree fx ⟨d, some s⟩ ∧ s.smCommit < s.quickCommit ∧
    s.smCommit < s.log.next - 1 ∧ s.log.get? (s.smCommit + 1) = some ⟨t, .conf conf⟩ ∧ s.config.logIdx < conf.logIdx ∧
    (∃ x ∈ conf.servers, x.id = s.id) ∧ (∀ x ∈ conf.servers, x.id ≠ 3) ∧ s.hasPeer 3 := by
  obtain ⟨⟨d, up⟩, fx, h, hp⟩ := Node.witness (c := node1) (n := Node.fresh conf3) (.start :: removeThree.map .go)
    (fun n _ => match n.up with
      | some s => match s.log.get? (s.smCommit + 1) with
        | some ⟨_, .conf conf⟩ => decide (s.smCommit < s.quickCommit ∧ s.smCommit < s.log.next - 1 ∧
            s.config.logIdx < conf.logIdx ∧ (∃ x ∈ conf.servers, x.id = s.id) ∧ (∀ x ∈ conf.servers, x.id ≠ 3) ∧ (∃ p ∈ s.peers, p.id = 3))
        | _ => false
      | none => false) (by decide +kernel)
  rcases up with _ | s
  · cases hp
  rcases he : s.log.get? (s.smCommit + 1) with _ | ⟨t, k⟩
  · simp only [he] at hp; cases hp
  cases k with
  | conf conf =>
    simp only [he] at hp
    obtain ⟨h1, h2, h3, h4, h5, h6⟩ := of_decide_eq_true hp
    exact ⟨d, s, fx, t, conf, h, h1, h2, he, h3, h4, h5, h6⟩
  | _ => simp only [he] at hp; cases hp

theorem run_voteReq_joinee (s : Srv) (r : Req) : (handleVoteReq r s).2.srvToJoin = s.srvToJoin := by
  unfold handleVoteReq
  rw [bind_get]
  split <;> rfl

/-- C100 fails for servers that are to join, in every state: a leader that hears of a higher term gives up the peer of the server that
is to join, whether or not requests to it are outstanding. -/
theorem joinee_lost {s : Srv} {r : Req} (hr : r.type = .voteReq) (ht : s.term < r.term) : ¬ ((Input.req r).run s).2.hasJoinee j := by
  rintro ⟨p, hp, -⟩
  have h1 : ((Input.req r).run s).2.srvToJoin = (processReq r s).2.srvToJoin := by
    show ((processReq r >>= fun resp => emit (.reply resp)) s).2.srvToJoin = _
    rcases h : processReq r s with ⟨q | q, s'⟩
    · rw [run_bind_err h]
    · rw [run_bind_ok h]; rfl
  have h2 : dispatch r = handleVoteReq r := by unfold dispatch; rw [hr]
  rw [h1, run_processReq, h2, run_voteReq_joinee] at hp
  unfold Srv.heard at hp
  rw [if_pos (.inr (.inl hr)), if_pos ht] at hp
  cases hp

/-- Server 1 is elected and its first configuration is in force; it is asked to add server 4 and invites it. -/
def inviteFour : List Input := [.electionTimeout, voteRespOf 2 1 true, appendRespOf 2 1 2, .apply, .req (addReqOf 4)]

/-- C100 fails: a leader that has invited server 4 hears of a higher term before server 4 has answered. -/
theorem joinee_lost_while_asked : ∃ fx fx' s s', Alive started inviteFour fx s ∧ s.hasJoinee 4 ∧ fx.any (Eff.sends 4) = true ∧
    Alive s [.req (voteReqOf 2 2 1 1)] fx' s' ∧ ¬ s'.hasJoinee 4 := by
  obtain ⟨fx, s, h, hp⟩ := live_check (s := started) (xs := inviteFour)
    (P := fun fx s => (fx.any (Eff.sends 4) && (s.srvToJoin.any fun p => p.id == 4) && decide (s.term = 1)) &&
      (match s.live [] [.req (voteReqOf 2 2 1 1)] with
        | some (_, s') => s'.srvToJoin.isNone
        | none => false)) (by decide +kernel)
  rw [Bool.and_eq_true, Bool.and_eq_true, Bool.and_eq_true] at hp
  obtain ⟨⟨⟨h1, h2⟩, h3⟩, h4⟩ := hp
  obtain ⟨fx', s', h5, h6⟩ := live_check (P := fun _ s' => s'.srvToJoin.isNone) h4
  refine ⟨fx, fx', s, s', h, ?_, h1, h5, fun ⟨p, hp, _⟩ => ?_⟩
  · rcases hs : s.srvToJoin with _ | p
    · rw [hs] at h2; cases h2
    · rw [hs] at h2
      exact ⟨p, hs, by simpa using h2⟩
  · rw [hp] at h6
    cases h6

end Cs.Raft
