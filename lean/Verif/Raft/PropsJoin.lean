import Verif.Raft.PropsSnap
import Verif.Raft.PropsLog
import Verif.Raft.PropsCommit
import Verif.Raft.PropsMember
import Verif.Raft.PropsApi

/-!
# A server is added to the cluster (C74)
-/

namespace Cs.Raft
open Cs

/-! ## Specification -/

/-- The commit thread of a server runs any number of times. -/
inductive Applies : Srv → Srv → Prop
  | refl {F : Srv} : Applies F F
  | step {F F1 F2 : Srv} : Applies F F1 → Input.apply.run { F1 with trace := [] } = (.ok ⟨⟩, F2) → Applies F F2

/-- The leader `L` has sent the request `q` to the server `F` that is to join. Messages arrive: `F` handles the request, the leader
handles the answer, and so on, until the leader sends no further request to `F`. Whatever the commit thread of `F` does in
between, there is an end, and then `Good` holds for the two servers. -/
inductive Ends (Good : Srv → Srv → Prop) : Srv → Srv → Req → Prop
  | last {L F L' F' : Srv} {q : Req} {a : Resp} {res : Except Fault Unit} :
      (Input.req q).run { F with trace := [] } = (.ok ⟨⟩, F') → answers F'.trace = [a] →
      (Input.extResp .joining q.type a).run { L with trace := [] } = (res, L') →
      (∀ r ∈ sends L'.trace, r.type ≠ .syncReq ∧ r.type ≠ .joinReq) → Good L' F' → Ends Good L F q
  | more {L F L' F' : Srv} {q q' : Req} {a : Resp} :
      (Input.req q).run { F with trace := [] } = (.ok ⟨⟩, F') → answers F'.trace = [a] →
      (Input.extResp .joining q.type a).run { L with trace := [] } = (.ok ⟨⟩, L') → sends L'.trace = [q'] →
      (∀ F'', Applies F' F'' → Ends Good L' F'' q') → Ends Good L F q

/-- The leader can be asked to add the server `c`. -/
structure CanAdd (L : Srv) (c : SrvCfg) : Prop where
  lead : L.role = .leader
  new : L.findPeer c.id = none
  other : L.id ≠ c.id
  calm : L.configChanging = false
  start : L.log.start = 1
  have_committed : L.quickCommit < L.log.next
  small : L.quickCommit < 2 ^ 31
  gap : 0 < L.params.logSyncGap
  batch : 0 < L.params.logSyncBatch
  /-- the server has not been a member before -/
  stranger : ∀ e ∈ L.log.ents, ∀ cf, e.val = .conf cf → cf.has c.id = false

/-- The leader has appended the configuration with the new server, which has the committed entries of the leader except for the
last few, and nothing else. -/
structure JoinDone (L L' F' : Srv) (c : SrvCfg) : Prop where
  conf : L'.log.ents = L.log.ents ++ [⟨L.term, .conf ⟨L.log.next, L.config.logIdx, L.config.servers ++ [c]⟩⟩]
  first : F'.log.start = 1
  same : F'.log.ents <+: L.log.ents
  committed : F'.log.next - 1 ≤ L.quickCommit
  enough : (L.quickCommit : Int) < F'.log.next + L.params.logSyncGap
  index : F'.quickCommit = F'.log.next - 1
  term : F'.term = L.term
  leader : F'.leader = L.id

/-! ## Handlers -/

/-- What the exchange depends on at the new server. -/
structure Stays (s s' : Srv) : Prop where
  id : s'.id = s.id
  up : s'.catchingUp = s.catchingUp
  role : s'.role = s.role
  term : s'.term = s.term
  leader : s'.leader = s.leader
  log : s'.log = s.log
  commit : s'.quickCommit = s.quickCommit

theorem stays_po : PO Stays :=
  ⟨fun _ => ⟨rfl, rfl, rfl, rfl, rfl, rfl, rfl⟩, fun h1 h2 => ⟨h2.1.trans h1.1, h2.2.trans h1.2, h2.3.trans h1.3, h2.4.trans h1.4,
    h2.5.trans h1.5, h2.6.trans h1.6, h2.7.trans h1.7⟩⟩

theorem addPeer_follower (c : SrvCfg) (s : Srv) (h : s.role ≠ .leader) : ∃ ps, addPeer c s = (.ok ⟨⟩, { s with peers := ps }) := by
  unfold addPeer
  rw [bind_modify, bind_get]
  by_cases hp : (s.findPeer c.id).isSome = true
  · rw [if_pos hp, if_neg h]; exact ⟨s.peers, rfl⟩
  · rw [if_neg hp]
    generalize s.peers ++ _ = qs
    rw [if_neg (show ({ s with peers := qs } : Srv).role ≠ .leader from h)]; exact ⟨_, rfl⟩

theorem addPeers_follower : ∀ (cs : List SrvCfg) (s : Srv), s.role ≠ .leader →
    ∃ ps, forEach addPeer cs s = (.ok ⟨⟩, { s with peers := ps })
  | [], s, _ => ⟨s.peers, rfl⟩
  | c :: cs, s, h => by
    obtain ⟨ps, h1⟩ := addPeer_follower c s h
    obtain ⟨qs, h2⟩ := addPeers_follower cs { s with peers := ps } h
    exact ⟨qs, by show (addPeer c >>= fun _ => forEach addPeer cs) s = _; rw [run_bind_ok h1, h2]⟩

theorem removePeers_catching (c : Config) : ∀ (is : List Int) (s : Srv), s.catchingUp = true →
    ∃ ps, forEach (removePeer c) is s = (.ok ⟨⟩, { s with peers := ps })
  | [], s, _ => ⟨s.peers, rfl⟩
  | i :: is, s, h => by
    obtain ⟨qs, h2⟩ := removePeers_catching c is { s with peers := s.peers.filter fun p => p.id != i } h
    refine ⟨qs, ?_⟩
    show (removePeer c i >>= fun _ => forEach (removePeer c) is) s = _
    have : removePeer c i s = (.ok ⟨⟩, { s with peers := s.peers.filter fun p => p.id != i }) := by
      unfold removePeer
      rw [bind_get, if_neg (by rw [h]; simp)]
      rfl
    rw [run_bind_ok this, h2]

theorem reconfigure_catching (c : Config) (s : Srv) (h1 : s.role ≠ .leader) (h2 : s.catchingUp = true) :
    ∃ ps, reconfigure c s = (.ok ⟨⟩, { s with peers := ps, config := c }) := by
  unfold reconfigure
  rw [bind_get]
  obtain ⟨ps, e1⟩ := addPeers_follower (c.servers.filter fun x => (s.findPeer x.id).isNone && x.id != s.id) s h1
  rw [run_bind_ok e1]
  obtain ⟨qs, e2⟩ := removePeers_catching c (((s.peers.map Peer.id).filter fun i => !c.has i) ++ if c.has s.id then [] else [s.id])
    { s with peers := ps } h2
  rw [run_bind_ok e2]
  exact ⟨qs, rfl⟩

theorem stays_snapshotAndCompact (i : Nat) : Pres Stays (snapshotAndCompact i) := by
  have hf : ∀ n c, Pres Stays (findConf i n c) := by
    intro n
    induction n with
    | zero => intro c s; exact stays_po.1 s
    | succ n ih =>
      intro c
      unfold findConf entryAt
      pres stays_po using ih
  unfold snapshotAndCompact startSnapshot confForSnap termAt die
  pres stays_po using hf
  all_goals exact fun s => ⟨rfl, rfl, rfl, rfl, rfl, rfl, rfl⟩

theorem apply_stays {F F' : Srv} (h1 : F.role ≠ .leader) (h2 : F.catchingUp = true)
    (h3 : ∀ e ∈ F.log.ents, ∀ cf, e.val = .conf cf → cf.has F.id = false)
    (h : Input.apply.run { F with trace := [] } = (.ok ⟨⟩, F')) : Stays F F' := by
  change applyOne _ = _ at h
  unfold applyOne at h
  rw [bind_get] at h
  by_cases hc : ({ F with trace := [] } : Srv).canApply = true
  · rw [if_pos hc, bind_modify] at h
    rcases hg : F.log.get? (F.smCommit + 1) with _ | e
    · have : ∃ f s1, entryToApply (F.smCommit + 1) { F with trace := [], smCommit := F.smCommit + 1 } = (.error f, s1) := by
        unfold entryToApply
        rw [bind_get]
        simp only [hg]
        split
        · exact ⟨_, _, rfl⟩
        · exact ⟨_, _, rfl⟩
      obtain ⟨f, s1, e1⟩ := this
      rw [run_bind_err e1] at h
      cases h
    · have hm : e ∈ F.log.ents := by
        unfold Log.get? at hg
        split at hg
        · cases hg
        · exact List.mem_of_getElem? hg
      have e0 : entryToApply (F.smCommit + 1) { F with trace := [], smCommit := F.smCommit + 1 } =
          (.ok e, { F with trace := [], smCommit := F.smCommit + 1 }) := by
        unfold entryToApply
        rw [bind_get]
        simp only [hg]
        rfl
      rw [run_bind_ok e0] at h
      have key : ∃ s1, applyEntry (F.smCommit + 1) e { F with trace := [], smCommit := F.smCommit + 1 } = (.ok ⟨⟩, s1) ∧ Stays F s1 := by
        obtain ⟨te, v⟩ := e
        cases v with
        | conf c =>
          show ∃ s1, commitConf c _ = _ ∧ _
          have hc := h3 _ hm c rfl
          unfold commitConf
          rw [bind_emit, bind_modify, bind_get]
          by_cases hi : F.config.logIdx < c.logIdx
          · simp only [if_pos hi]
            obtain ⟨ps, e1⟩ := reconfigure_catching c
              { F with trace := [.saveConfig c], smCommit := F.smCommit + 1, configChanging := false } h1 h2
            refine ⟨_, run_bind_ok e1, rfl, ?_, rfl, rfl, rfl, rfl, rfl⟩
            show (if c.has F.id then false else F.catchingUp) = _
            rw [hc]; rfl
          · simp only [if_neg hi]
            refine ⟨_, rfl, rfl, ?_, rfl, rfl, rfl, rfl, rfl⟩
            show (if c.has F.id then false else F.catchingUp) = _
            rw [hc]; rfl
        | _ => exact ⟨_, rfl, rfl, rfl, rfl, rfl, rfl, rfl, rfl⟩
      obtain ⟨s1, e1, e2⟩ := key
      rw [run_bind_ok e1] at h
      have := stays_snapshotAndCompact (F.smCommit + 1) s1
      rw [h] at this
      exact stays_po.2 e2 this
  · rw [if_neg hc] at h
    cases h; exact ⟨rfl, rfl, rfl, rfl, rfl, rfl, rfl⟩

theorem applies_stays {F F' : Srv} (h1 : F.role ≠ .leader) (h2 : F.catchingUp = true)
    (h3 : ∀ e ∈ F.log.ents, ∀ cf, e.val = .conf cf → cf.has F.id = false) (h : Applies F F') : Stays F F' := by
  induction h with
  | refl => exact stays_po.1 _
  | step _ hs ih =>
    exact stays_po.2 ih (apply_stays (by rw [ih.role]; exact h1) (by rw [ih.up]; exact h2) (by rw [ih.log, ih.id]; exact h3) hs)

/-- The server that has handled an invitation. -/
def invited (F : Srv) (q : Req) (c : Config) (ps : List Peer) : Srv :=
  let F1 : Srv := { F with catchingUp := true, role := .follower, leader := q.src, smCommit := 0, quickCommit := 0, vote := -1 }
  { F1 with term := q.term, trace := F.trace ++ [.saveState q.term (-1)], peers := ps, config := c }

/-- The new server handles an invitation. -/
theorem handleJoin_run {F : Srv} {q : Req} {t : Nat} {c : Config} (he : q.entries = [⟨t, .conf c⟩]) (hc : F.catchingUp = false) :
    ∃ ps, handleJoin q F =
      (.ok { type := .joinResp, term := F.term, src := F.id, dst := q.src, nextIdx := F.log.next, accepted := true }, invited F q c ps) := by
  unfold handleJoin
  rw [bind_get, he]
  show ∃ ps, (if F.catchingUp = true then _ else _ : R Resp) F = _
  rw [if_neg (by rw [hc]; exact Bool.false_ne_true), bind_modify, bind_modify, bind_modify, bind_saveState]
  obtain ⟨ps, e1⟩ := reconfigure_catching c { invited F q c F.peers with config := F.config } (by exact fun h => (by cases h)) rfl
  refine ⟨ps, ?_⟩
  have e1 : reconfigure c { invited F q c F.peers with config := F.config } = (.ok ⟨⟩, invited F q c ps) := e1
  exact (run_bind_ok e1).trans rfl

theorem reply_run {F F' : Srv} {q : Req} {a : Resp} (h : processReq q F = (.ok a, F')) :
    (Input.req q).run F = (.ok ⟨⟩, { F' with trace := F'.trace ++ [.reply a] }) := by
  show (processReq q >>= fun a => emit (.reply a)) F = _
  rw [run_bind_ok h]
  rfl

/-- The server that has handled a pack. -/
def packed (F : Srv) (q : Req) : Srv :=
  { F with log := ⟨F.log.start, F.log.ents ++ q.pack⟩, quickCommit := F.log.next + q.pack.length - 1, trace := F.trace ++ [.applyPack (q.lastIdx + 1) q.pack] ++ [.advance (F.log.next + q.pack.length - 1)] }

/-- The new server handles a pack. -/
theorem handleLogSync_run {F : Srv} {q : Req} {t : Nat} (he : q.entries = [⟨t, .logPack⟩]) (hc : F.catchingUp = true)
    (hr : F.role ≠ .leader) (hp : q.pack ≠ []) (h1 : F.log.start ≤ q.lastIdx + 1) (h2 : q.lastIdx + 1 = F.log.next)
    (h3 : F.quickCommit < q.lastIdx + 1) : handleLogSync q F =
      (.ok { type := .syncResp, term := F.term, src := F.id, dst := q.src, nextIdx := F.log.next + q.pack.length, accepted := true },
        packed F q) := by
  have hlen : 0 < q.pack.length := List.length_pos_iff.2 hp
  have hlog : F.log.replaceFrom (q.lastIdx + 1) q.pack = ⟨F.log.start, F.log.ents ++ q.pack⟩ := by
    unfold Log.replaceFrom
    rw [List.take_of_length_le (by unfold Log.next at h2; omega)]
  have hnext : (⟨F.log.start, F.log.ents ++ q.pack⟩ : Log).next = F.log.next + q.pack.length := by
    unfold Log.next
    simp only [List.length_append]
    omega
  generalize hF1 : ({ F with log := ⟨F.log.start, F.log.ents ++ q.pack⟩, trace := F.trace ++ [.applyPack (q.lastIdx + 1) q.pack] } : Srv) = F1
  have e1 : logApplyPack (q.lastIdx + 1) q.pack F = (.ok ⟨⟩, F1) := by
    unfold logApplyPack
    rw [bind_get, if_neg hp, if_neg (by omega), bind_modify, hlog, ← hF1]
    rfl
  unfold handleLogSync
  rw [bind_get, he]
  show (if F.catchingUp = false then _ else _ : R Resp) F = _
  rw [if_neg (by rw [hc]; simp), run_bind_ok e1, bind_get]
  have hn1 : F1.log.next = F.log.next + q.pack.length := by rw [← hF1]; exact hnext
  have e2 : commit (F1.log.next - 1) F1 = (.ok ⟨⟩, packed F q) := by
    unfold commit
    rw [bind_get, hn1, if_pos (by rw [← hF1]; show F.quickCommit < _; omega), bind_modify, bind_emit,
      if_neg (by rw [← hF1]; exact hr), ← hF1]
    rfl
  rw [run_bind_ok e2, hn1]
  rfl

/-! ## The leader -/

/-- Only append and snapshot requests are sent. -/
def OnlyRepl (s s' : Srv) : Prop := ∃ es, s'.trace = s.trace ++ es ∧ ∀ r, Eff.send r ∈ es → isRepl r.type

theorem onlyRepl_po : PO OnlyRepl :=
  ⟨fun s => ⟨[], (List.append_nil _).symm, fun _ h => (by cases h)⟩, fun ⟨es, h1, h2⟩ ⟨fs, h3, h4⟩ =>
    ⟨es ++ fs, by rw [h3, h1, List.append_assoc], fun r hr => (List.mem_append.1 hr).elim (h2 r) (h4 r)⟩⟩

theorem onlyRepl_of_frame {α : Type} {m : R α} (h : Pres (Frame isRepl) m) : Pres OnlyRepl m := by
  intro s
  obtain ⟨ps, j, es, h1, _, _, h2⟩ := h s
  refine ⟨es, by rw [h1], fun r hr => ?_⟩
  rcases h2 _ hr with h | ⟨r', e, _, h⟩
  · cases h
  · cases e; exact h

theorem onlyRepl_requestAppendAll : Pres OnlyRepl requestAppendAll := by
  have h1 : ∀ i, Pres OnlyRepl (commitNotify i) := fun i => onlyRepl_of_frame (commitNotify_frame i)
  have h2 : ∀ i, Pres OnlyRepl (requestAppendTo i) := fun i => onlyRepl_of_frame (requestAppendTo_frame i)
  unfold requestAppendAll commit peerIds
  pres onlyRepl_po using h1, h2
  · exact fun s => ⟨[], (List.append_nil _).symm, fun _ h => (by cases h)⟩
  · exact fun s => ⟨[_], rfl, fun _ h => (by cases List.mem_singleton.1 h)⟩

theorem mem_sends {es : List Eff} {r : Req} : r ∈ sends es ↔ Eff.send r ∈ es := by
  unfold sends
  rw [List.mem_filterMap]
  constructor
  · rintro ⟨e, h1, h2⟩
    cases e <;> cases h2
    exact h1
  · exact fun h => ⟨_, h, rfl⟩

/-- The leader adds the server. -/
theorem addToConfig_run {L : Srv} {c : SrvCfg} (h : L.confToAdd = some c) (ht : L.trace = []) : ∃ res L', addToConfig L = (res, L') ∧
    L'.log.ents = L.log.ents ++ [⟨L.term, .conf ⟨L.log.next, L.config.logIdx, L.config.servers ++ [c]⟩⟩] ∧
    ∀ r ∈ sends L'.trace, isRepl r.type := by
  unfold addToConfig
  rw [bind_get, h]
  show ∃ res L', (logAppend ⟨L.term, .conf ⟨L.log.next, L.config.logIdx, L.config.servers ++ [c]⟩⟩ >>= fun _ =>
    modify (fun s => { s with configChanging := true }) >>= fun _ => requestAppendAll) L = (res, L') ∧ _
  generalize (⟨L.term, .conf ⟨L.log.next, L.config.logIdx, L.config.servers ++ [c]⟩⟩ : Entry) = e
  have e1 : logAppend e L = (.ok ⟨⟩, { L with log := L.log.append e, trace := L.trace ++ [.append e] }) := rfl
  rw [run_bind_ok e1, bind_modify]
  generalize hs : ({ L with log := L.log.append e, trace := L.trace ++ [.append e], configChanging := true } : Srv) = s
  refine ⟨(requestAppendAll s).1, (requestAppendAll s).2, rfl, ?_, ?_⟩
  · rw [sameLog_requestAppendAll s, ← hs]
    rfl
  · obtain ⟨es, h1, h2⟩ := onlyRepl_requestAppendAll s
    intro r hr
    rw [mem_sends, h1, ← hs] at hr
    have hr : Eff.send r ∈ L.trace ++ [.append e] ++ es := hr
    rw [ht] at hr
    rcases List.mem_append.1 hr with hr | hr
    · cases List.mem_singleton.1 hr
    · exact h2 r hr

/-- The leader handles an answer of the new server. -/
theorem ext_run {L : Srv} {p : Peer} {ty : MsgType} {a : Resp} (hp : L.srvToJoin = some p)
    (ha : a.type = .joinResp ∧ a.accepted = true ∨ a.type = .syncResp) : ∃ p', p'.cfg = p.cfg ∧
      (Input.extResp .joining ty a).run L = syncLogToNewSrv a.nextIdx { L with srvToJoin := some p' } := by
  have e0 : ∃ p1, p1.cfg = p.cfg ∧ rpcResult .joining ty true L = (.ok ⟨⟩, { L with srvToJoin := some p1 }) := by
    refine ⟨resumeHb L.params (if ty = .appendReq ∨ ty = .snpReq then { p with busy := false } else p), ?_, ?_⟩
    · unfold resumeHb; split <;> rfl
    · unfold rpcResult
      rw [bind_get, bind_modPeer]
      unfold Srv.setPeer
      rw [hp]
      rfl
  obtain ⟨p1, c1, e1⟩ := e0
  have e2 : (Input.extResp .joining ty a).run L = handleExtResp a { L with srvToJoin := some p1 } := run_bind_ok e1
  rw [e2]
  unfold handleExtResp
  rw [bind_get]
  rcases ha with ⟨h1, h2⟩ | h1
  · rw [h1]
    refine ⟨p1, c1, ?_⟩
    show (if a.accepted = true then syncLogToNewSrv a.nextIdx else pure ()) _ = _
    rw [if_pos h2]
  · rw [h1]
    exact ⟨{ resumeHb L.params p1 with nextIdx := a.nextIdx, matched := subU64 a.nextIdx 1 }, c1, rfl⟩

/-- A pack of `k` entries from index `n` on. -/
def packReq (L : Srv) (c : SrvCfg) (n k : Nat) : Req :=
  { type := .syncReq, term := L.term, src := L.id, dst := c.id, lastTerm := 0, lastIdx := n - 1,
    commitIdx := L.quickCommit, entries := [⟨L.term, .logPack⟩], pack := L.log.range n (n + k) }

theorem sub_le {a b : Nat} (h : b ≤ a) (ha : a < 2 ^ 31) : subU64 a b = a - b := by
  unfold subU64; omega

theorem syncLog_pack {L : Srv} {p : Peer} {n : Nat} (hp : L.srvToJoin = some p) (h1 : L.log.start ≤ n) (h0 : 0 < n)
    (hn : n ≤ L.quickCommit) (hq : L.quickCommit < L.log.next) (hb : 0 < L.params.logSyncBatch) (hz : 0 < L.params.logSyncGap) (hs : L.quickCommit < 2 ^ 31) (hg : L.params.logSyncGap ≤ (L.quickCommit - n : Nat)) :
    syncLogToNewSrv n L = (.ok ⟨⟩, { L with trace := L.trace ++
      [.send (packReq L p.cfg n (min ((L.quickCommit - n : Nat) : Int) L.params.logSyncBatch).toNat)] }) := by
  have e1 : toI32 (subU64 L.quickCommit n : Nat) = (L.quickCommit - n : Nat) := by
    rw [sub_le hn hs, toI32_small (by omega)]
  unfold syncLogToNewSrv
  rw [bind_get, e1, if_neg (by omega), if_neg (by omega), if_neg (by omega), packOf_range (by omega) (by omega)]
  show (getPeer .joining >>= fun p => emit (.send _)) L = _
  rw [run_bind_ok (getPeer_some (r := .joining) hp),
    sub_le (a := n) (b := 1) (by omega) (by omega)]
  rfl

theorem syncLog_done {L : Srv} {n : Nat} (hs : L.quickCommit < 2 ^ 31) (hg : 0 < L.params.logSyncGap)
    (h : n ≤ L.quickCommit ∧ ((L.quickCommit - n : Nat) : Int) < L.params.logSyncGap ∨ n = 1 ∧ L.quickCommit = 0) :
    syncLogToNewSrv n L = addToConfig L := by
  unfold syncLogToNewSrv
  rw [bind_get]
  rcases h with ⟨h1, h2⟩ | ⟨rfl, h2⟩
  · rw [sub_le h1 hs, toI32_small (by omega), if_pos h2]
  · rw [h2, if_pos]
    have : toI32 ((subU64 0 1 : Nat) : Int) = -1 := by decide +kernel
    rw [this]
    omega

/-! ## The exchange -/

def serving (L0 : Srv) (c : SrvCfg) (p : Peer) (tr : List Eff) : Srv :=
  { L0 with confToAdd := some c, srvToJoin := some p, trace := tr }

/-- The leader while the server joins. -/
def Serving (L0 : Srv) (c : SrvCfg) (L : Srv) : Prop :=
  ∃ p tr, p.cfg = c ∧ L = serving L0 c p tr

/-- The invitation. -/
def inviteReq (L : Srv) (c : SrvCfg) : Req :=
  { type := .joinReq, term := L.term, src := L.id, dst := c.id, lastTerm := 0, lastIdx := L.log.next - 1, commitIdx := L.quickCommit, entries := [⟨L.term, .conf L.config⟩] }

/-- The server that joins has the first `m` entries. -/
structure Catching (L0 : Srv) (c : SrvCfg) (m : Nat) (F : Srv) : Prop where
  id : F.id = c.id
  up : F.catchingUp = true
  role : F.role = .follower
  term : F.term = L0.term
  leader : F.leader = L0.id
  log : F.log = ⟨1, L0.log.ents.take m⟩
  commit : F.quickCommit = m

theorem Catching.applies {L0 : Srv} {c : SrvCfg} {m : Nat} {F F' : Srv} (h : Catching L0 c m F) (h0 : CanAdd L0 c)
    (ha : Applies F F') : Catching L0 c m F' := by
  have := applies_stays (by rw [h.role]; exact fun h => (by cases h)) h.up (by
    intro e he
    rw [h.log] at he
    rw [h.id]
    exact h0.stranger e (List.mem_of_mem_take he)) ha
  exact ⟨this.id.trans h.id, this.up.trans h.up, this.role.trans h.role, this.term.trans h.term, this.leader.trans h.leader,
    this.log.trans h.log, this.commit.trans h.commit⟩

/-- The size of the next pack. -/
def packSize (L0 : Srv) (m : Nat) : Nat := (min ((L0.quickCommit - (m + 1) : Nat) : Int) L0.params.logSyncBatch).toNat

theorem join_answered {L0 : Srv} {c : SrvCfg} (h0 : CanAdd L0 c) {m : Nat} {L F F' : Srv} {q : Req} {a : Resp} (hL : Serving L0 c L)
    (hq : (Input.req q).run { F with trace := [] } = (.ok ⟨⟩, F')) (ha : answers F'.trace = [a])
    (ht : a.type = .joinResp ∧ a.accepted = true ∨ a.type = .syncResp) (hn : a.nextIdx = m + 1) (hF : Catching L0 c m F')
    (hm : m + 1 ≤ L0.quickCommit ∨ m = 0)
    (ih : ∀ L' F'', m + 1 ≤ L0.quickCommit → L0.params.logSyncGap ≤ (L0.quickCommit - (m + 1) : Nat) → Serving L0 c L' →
      Catching L0 c m F'' → Ends (fun L' F' => JoinDone L0 L' F' c) L' F'' (packReq L0 c (m + 1) (packSize L0 m))) :
    Ends (fun L' F' => JoinDone L0 L' F' c) L F q := by
  obtain ⟨p, tr, hp, rfl⟩ := hL
  obtain ⟨p', hp', e1⟩ := ext_run (L := serving L0 c p []) (ty := q.type) (a := a)
    rfl ht
  replace e1 : (Input.extResp .joining q.type a).run (serving L0 c p []) = syncLogToNewSrv a.nextIdx (serving L0 c p' []) := e1
  have hlen : L0.quickCommit ≤ L0.log.ents.length := by
    have := h0.have_committed; have := h0.start; unfold Log.next at *; omega
  have hgap := h0.gap
  by_cases hg : m + 1 ≤ L0.quickCommit ∧ L0.params.logSyncGap ≤ (L0.quickCommit - (m + 1) : Nat)
  · rw [hn, syncLog_pack (L := serving L0 c p' []) (p := p') rfl (by show L0.log.start ≤ _; rw [h0.start]; omega) (by omega) hg.1 h0.have_committed
      h0.batch h0.gap h0.small hg.2] at e1
    refine .more hq ha e1 rfl fun F'' hF'' => ?_
    rw [show p'.cfg = c from hp'.trans hp]
    exact ih _ F'' hg.1 hg.2 ⟨p', _, hp'.trans hp, rfl⟩ (hF.applies h0 hF'')
  · have hcase : m + 1 ≤ L0.quickCommit ∧ ((L0.quickCommit - (m + 1) : Nat) : Int) < L0.params.logSyncGap ∨
        m + 1 = 1 ∧ L0.quickCommit = 0 := by
      rcases hm with hm | hm <;> omega
    rw [hn, syncLog_done (L := serving L0 c p' []) h0.small h0.gap hcase] at e1
    obtain ⟨res, L', e2, e3, e4⟩ := addToConfig_run
      (L := serving L0 c p' []) (c := c) rfl rfl
    refine .last hq ha (e1.trans e2) (fun r hr => ?_) ⟨e3, by rw [hF.log], by rw [hF.log]; exact List.take_prefix .., ?_, ?_, ?_,
      hF.term, hF.leader⟩
    · rcases e4 r hr with h | h <;> rw [h] <;> exact ⟨fun h => (by cases h), fun h => (by cases h)⟩
    all_goals
      rw [hF.log]
      unfold Log.next
      simp only [List.length_take]
      try rw [hF.commit]
      omega

theorem pack_rounds {L0 : Srv} {c : SrvCfg} (h0 : CanAdd L0 c) : ∀ (n m : Nat) (L F : Srv), L0.quickCommit - m ≤ n →
    m + 1 ≤ L0.quickCommit → L0.params.logSyncGap ≤ (L0.quickCommit - (m + 1) : Nat) → Serving L0 c L → Catching L0 c m F →
    Ends (fun L' F' => JoinDone L0 L' F' c) L F (packReq L0 c (m + 1) (packSize L0 m)) := by
  intro n
  induction n with
  | zero => intro m L F h1 h2; omega
  | succ n ih =>
    intro m L F h1 h2 h3 hL hF
    have hlen : L0.quickCommit ≤ L0.log.ents.length := by
      have := h0.have_committed; have := h0.start; unfold Log.next at *; omega
    have hk : 0 < packSize L0 m ∧ m + packSize L0 m + 1 ≤ L0.quickCommit := by
      have := h0.gap; have := h0.batch
      unfold packSize
      omega
    have hpack : (packReq L0 c (m + 1) (packSize L0 m)).pack = (L0.log.ents.drop m).take (packSize L0 m) := by
      show (L0.log.ents.drop (m + 1 - L0.log.start)).take _ = _
      rw [h0.start]
      congr 1
      omega
    have hplen : (packReq L0 c (m + 1) (packSize L0 m)).pack.length = packSize L0 m := by
      rw [hpack, List.length_take, List.length_drop]; omega
    have hnext : F.log.next = m + 1 := by
      rw [hF.log]; unfold Log.next; simp only [List.length_take]; omega
    have e1 := handleLogSync_run (F := { F with trace := [] }) (q := packReq L0 c (m + 1) (packSize L0 m)) rfl hF.up
      (by show F.role ≠ _; rw [hF.role]; exact fun h => (by cases h))
      (by intro h; rw [h] at hplen; simp only [List.length_nil] at hplen; omega)
      (by show F.log.start ≤ m + 1 - 1 + 1; rw [hF.log]; show 1 ≤ _; omega) (by show m + 1 - 1 + 1 = F.log.next; omega)
      (by show F.quickCommit < m + 1 - 1 + 1; rw [hF.commit]; omega)
    have e2 : processReq (packReq L0 c (m + 1) (packSize L0 m)) { F with trace := [] } = _ := e1
    have e3 := reply_run e2
    refine join_answered h0 (m := m + packSize L0 m) hL e3 rfl (.inr rfl) ?_ ?_ (by omega) fun L' F'' g1 g2 g3 g4 =>
      ih (m + packSize L0 m) L' F'' (by omega) g1 g2 g3 g4
    · show F.log.next + _ = _
      rw [hplen, hnext]; omega
    · refine ⟨hF.id, hF.up, hF.role, hF.term, hF.leader, ?_, ?_⟩
      · show (⟨F.log.start, F.log.ents ++ _⟩ : Log) = _
        rw [hF.log, hpack]
        congr 1
        rw [← List.take_add]
      · show F.log.next + _ - 1 = _
        rw [hplen, hnext]; omega

/-- C74, partial. A leader is asked to add a server; the log of the server is empty. If messages arrive, then whatever the commit
thread of the new server does in between, the exchange ends with a configuration entry for the new server in the log of the leader,
and the new server has committed entries of the leader and nothing else, except for less than `log_sync_stop_gap` of them.

What is missing: a new server that has a log of its own (`own_entries_applied`); a server that has been a member before
(`former_member_stuck`); a leader that has compacted its log. -/
theorem new_server_gets_log_partial {L F : Srv} {c : SrvCfg} {r : Req} {t : Nat} (h : CanAdd L c) (hr : r.type = .addReq)
    (he : r.entries = [⟨t, .srv c⟩]) (hi : F.id = c.id) (hl : F.log = ⟨1, []⟩) (hc : F.catchingUp = false) :
    ∃ L' q, (Input.req r).run { L with trace := [] } = (.ok ⟨⟩, L') ∧ sends L'.trace = [q] ∧
      Ends (fun L' F' => JoinDone L L' F' c) L' F q := by
  have e1 : ∃ a p, processReq r { L with trace := [] } = (.ok a, serving L c p [.send (inviteReq L c)]) ∧ p.cfg = c := by
    have h1 : processReq r { L with trace := [] } = handleAddSrv r { L with trace := [] } := by
      unfold processReq hearTerm dispatch handleExtended
      rw [hr]
      rfl
    rw [h1]
    unfold handleAddSrv
    rw [bind_get, he]
    show ∃ a p, (if L.role ≠ .leader ∨ (L.findPeer c.id).isSome = true ∨ L.id = c.id ∨ L.configChanging = true then _ else _ : R Resp)
      _ = _ ∧ _
    rw [if_neg (by
      rintro (h1 | h1 | h1 | h1)
      · exact h1 h.lead
      · rw [h.new] at h1; cases h1
      · exact h.other h1
      · rw [h.calm] at h1; cases h1)]
    exact ⟨_, { cfg := c, hbInterval := L.params.hbInterval }, rfl, rfl⟩
  obtain ⟨a, p, e1, e2⟩ := e1
  have e4 := reply_run e1
  refine ⟨_, inviteReq L c, e4, rfl, ?_⟩
  obtain ⟨ps, f1⟩ := handleJoin_run (F := { F with trace := [] }) (q := inviteReq L c) (t := L.term) (c := L.config) rfl hc
  have f2 := reply_run (F := { F with trace := [] }) (q := inviteReq L c) f1
  refine join_answered h (m := 0) ⟨p, _, e2, rfl⟩ f2 rfl (.inl ⟨rfl, rfl⟩) ?_ ?_ (.inr rfl) fun L' F'' g1 g2 g3 g4 =>
    pack_rounds h _ 0 L' F'' (Nat.le_refl _) g1 g2 g3 g4
  · show F.log.next = 1
    rw [hl]; rfl
  · refine ⟨hi, rfl, rfl, rfl, rfl, ?_, rfl⟩
    show F.log = _
    rw [hl]; rfl

/-! ## Cases -/

/-- Small packs. -/
def packs : Params := { logSyncGap := 1, logSyncBatch := 2 }
def leader1 : Setup := { id := 1, params := packs }
def joiner (i : Int) : Setup := { id := i, params := packs }
/-- The configuration of a server that is alone. -/
def aloneConf (i : Int) : Config := ⟨0, 0, [⟨i, 7⟩]⟩

/-- A leader takes the command `d` as entry `i`, server 2 has it, and it is applied. -/
def putScript (d i : Nat) : List Move := [.go (cliReq d), .go (appendRespOf 2 1 (i + 1)), .go .apply]

/-- `CanAdd`, to be evaluated. -/
def canAdd (L : Srv) (c : SrvCfg) : Bool :=
  decide (L.role = .leader) && (L.findPeer c.id).isNone && decide (L.id ≠ c.id) && !L.configChanging && decide (L.log.start = 1) &&
  decide (L.quickCommit < L.log.next) && decide (L.quickCommit < 2 ^ 31) && decide (0 < L.params.logSyncGap) &&
  decide (0 < L.params.logSyncBatch) && L.log.ents.all fun e => match e.val with | .conf cf => !cf.has c.id | _ => true

theorem canAdd_sound {L : Srv} {c : SrvCfg} (h : canAdd L c = true) : CanAdd L c := by
  unfold canAdd at h
  simp only [Bool.and_eq_true, decide_eq_true_eq, Option.isNone_iff_eq_none, Bool.not_eq_true', List.all_eq_true] at h
  obtain ⟨⟨⟨⟨⟨⟨⟨⟨⟨h1, h2⟩, h3⟩, h4⟩, h5⟩, h6⟩, h7⟩, h8⟩, h9⟩, h10⟩ := h
  refine ⟨h1, h2, h3, h4, h5, h6, h7, h8, h9, fun e he cf hv => ?_⟩
  have := h10 e he
  rw [hv] at this
  exact (Bool.not_eq_true' _).mp this

/-- The case of C74: server 1 leads, five entries are committed, server 4 has just started. There will be three packs. -/
example : ∃ d L fx d' F fx', Hist leader1 (Node.fresh conf3)
      ((electScript ++ putScript 5 2 ++ putScript 6 3 ++ putScript 7 4 ++ putScript 8 5).flatMap Move.input) fx ⟨d, some L⟩ ∧
    Hist (joiner 4) (Node.fresh (aloneConf 4)) [] fx' ⟨d', some F⟩ ∧
    CanAdd L ⟨4, 7⟩ ∧ L.quickCommit = 5 ∧ F.id = 4 ∧ F.log = ⟨1, []⟩ ∧ F.catchingUp = false := by
  obtain ⟨⟨d, up⟩, fx, h, hp⟩ := Node.witness (c := leader1) (n := Node.fresh conf3)
    (electScript ++ putScript 5 2 ++ putScript 6 3 ++ putScript 7 4 ++ putScript 8 5)
    (fun n _ => match n.up with | some s => canAdd s ⟨4, 7⟩ && decide (s.quickCommit = 5) | none => false) (by decide +kernel)
  obtain ⟨⟨d', up'⟩, fx', h', hp'⟩ := Node.witness (c := joiner 4) (n := Node.fresh (aloneConf 4)) [.start]
    (fun n _ => match n.up with | some s => decide (s.id = 4) && decide (s.log = ⟨1, []⟩) && !s.catchingUp | none => false)
    (by decide +kernel)
  rcases up with _ | L
  · cases hp
  rcases up' with _ | F
  · cases hp'
  simp only [Bool.and_eq_true, decide_eq_true_eq, Bool.not_eq_true'] at hp hp'
  exact ⟨d, L, fx, d', F, fx', h, h', canAdd_sound hp.1, hp.2, hp'.1.1, hp'.1.2, hp'.2⟩

/-- The answers of the server that joins. -/
def joinAnswer (t : Nat) (i : Int) (next : Nat) : Resp :=
  { type := .joinResp, term := t, src := i, dst := 1, nextIdx := next, accepted := true }
def packAnswer (t : Nat) (i : Int) (next : Nat) (ok : Bool) : Resp :=
  { type := .syncResp, term := t, src := i, dst := 1, nextIdx := next, accepted := ok }
/-- The requests to the server that joins, from server 1 in term 1. -/
def joinRequest (i : Int) (last commit : Nat) (c : Config) : Req :=
  { type := .joinReq, term := 1, src := 1, dst := i, lastTerm := 0, lastIdx := last, commitIdx := commit, entries := [⟨1, .conf c⟩] }
def packRequest (i : Int) (last commit : Nat) (es : List Entry) : Req :=
  { type := .syncReq, term := 1, src := 1, dst := i, lastTerm := 0, lastIdx := last, commitIdx := commit, entries := [⟨1, .logPack⟩], pack := es }

/-- C74 fails for a server that has a log: server 4 starts alone, elects itself and takes command 9 as entry 2. Then server 1, whose
entry 2 is command 5, is asked to add server 4. Server 4 answers that its log ends at 2, gets the entries 3 and 4, and its state
machine gets the commands 9, 6 and 7, when that of the leader has got 5, 6, 7 and 8. Server 4 becomes a member. -/
theorem own_entries_applied : ∃ n fx n' fx' c,
    Hist leader1 (Node.fresh conf3)
      ((electScript ++ putScript 5 2 ++ putScript 6 3 ++ putScript 7 4 ++ putScript 8 5).flatMap Move.input ++
        [.req (addReqOf 4), .extResp .joining .joinReq (joinAnswer 1 4 3), .extResp .joining .syncReq (packAnswer 1 4 5 true)]) fx n ∧
    Hist (joiner 4) (Node.fresh (aloneConf 4))
      [.electionTimeout, .apply, cliReq 9, .apply,
        .req (joinRequest 4 5 5 c), .req (packRequest 4 2 5 [⟨1, .app 6⟩, ⟨1, .app 7⟩]), .apply, .apply, .apply, .apply] fx' n' ∧
    (∀ q ∈ [joinRequest 4 5 5 c, packRequest 4 2 5 [⟨1, .app 6⟩, ⟨1, .app 7⟩]], q ∈ sends fx) ∧
    (∀ a ∈ [joinAnswer 1 4 3, packAnswer 1 4 5 true], a ∈ answers fx') ∧
    commits fx = [(2, ⟨1, .app 5⟩), (3, ⟨1, .app 6⟩), (4, ⟨1, .app 7⟩), (5, ⟨1, .app 8⟩)] ∧
    commits fx' = [(2, ⟨1, .app 9⟩), (2, ⟨1, .app 9⟩), (3, ⟨1, .app 6⟩), (4, ⟨1, .app 7⟩)] ∧
    (n.up.bind fun s => (s.log.get? 6).map Entry.val) = some (.conf ⟨6, 1, [⟨1, 1⟩, ⟨2, 2⟩, ⟨3, 3⟩, ⟨4, 7⟩]⟩) := by
  obtain ⟨n, fx, h, hp⟩ := Node.witness (c := leader1) (n := Node.fresh conf3)
    (electScript ++ putScript 5 2 ++ putScript 6 3 ++ putScript 7 4 ++ putScript 8 5 ++
      [.go (.req (addReqOf 4)), .go (.extResp .joining .joinReq (joinAnswer 1 4 3)),
        .go (.extResp .joining .syncReq (packAnswer 1 4 5 true))])
    (fun n fx => [joinRequest 4 5 5 ⟨1, 0, conf3.servers⟩, packRequest 4 2 5 [⟨1, .app 6⟩, ⟨1, .app 7⟩]].all (fun q => decide (q ∈ sends fx)) &&
      decide (commits fx = [(2, ⟨1, .app 5⟩), (3, ⟨1, .app 6⟩), (4, ⟨1, .app 7⟩), (5, ⟨1, .app 8⟩)]) &&
      decide ((n.up.bind fun s => (s.log.get? 6).map Entry.val) = some (.conf ⟨6, 1, [⟨1, 1⟩, ⟨2, 2⟩, ⟨3, 3⟩, ⟨4, 7⟩]⟩)))
    (by decide +kernel)
  obtain ⟨n', fx', h', hp'⟩ := Node.witness (c := joiner 4) (n := Node.fresh (aloneConf 4))
    ([.start, .go .electionTimeout, .go .apply, .go (cliReq 9), .go .apply, .go (.req (joinRequest 4 5 5 ⟨1, 0, conf3.servers⟩)),
      .go (.req (packRequest 4 2 5 [⟨1, .app 6⟩, ⟨1, .app 7⟩])), .go .apply, .go .apply, .go .apply, .go .apply])
    (fun _ fx => [joinAnswer 1 4 3, packAnswer 1 4 5 true].all (fun a => decide (a ∈ answers fx)) &&
      decide (commits fx = [(2, ⟨1, .app 9⟩), (2, ⟨1, .app 9⟩), (3, ⟨1, .app 6⟩), (4, ⟨1, .app 7⟩)]))
    (by decide +kernel)
  simp only [Bool.and_eq_true, decide_eq_true_eq, List.all_eq_true] at hp hp'
  exact ⟨n, fx, n', fx', _, h, h', hp.1.1, hp'.1, hp.1.2, hp'.2, hp.2⟩

/-- Server 1 leads, server 3 leaves, four commands are committed. -/
def removeScript : List Move :=
  electScript ++ [.go (.req (rmReqOf 3)), .go (leftOf 3), .go (appendRespOf 2 1 3), .go .apply] ++
    putScript 5 3 ++ putScript 6 4 ++ putScript 7 5 ++ putScript 8 6

/-- C74 fails for a server that has been a member before: server 3 has been removed and its disk wiped, and server 1 is asked to add it
again. The first pack has the old configuration, of which server 3 is a member. When it is applied, server 3 thinks that it has caught
up, and refuses the next pack. The leader takes index 0 from the answer, and asks its log for a pack that starts at 0, which
raises an exception. Nothing is sent, nothing is appended: server 3 does not become a member. -/
theorem former_member_stuck : ∃ d s fx n' fx',
    Hist leader1 (Node.fresh conf3) (removeScript.flatMap Move.input ++
        [.req (addReqOf 3), .extResp .joining .joinReq (joinAnswer 0 3 1), .extResp .joining .syncReq (packAnswer 1 3 3 true)]) fx
      ⟨d, some s⟩ ∧
    Hist (joiner 3) (Node.fresh (aloneConf 3))
      [.req (joinRequest 3 6 6 ⟨2, 1, [⟨1, 1⟩, ⟨2, 2⟩]⟩),
        .req (packRequest 3 0 6 [⟨1, .conf ⟨1, 0, conf3.servers⟩⟩, ⟨1, .conf ⟨2, 1, [⟨1, 1⟩, ⟨2, 2⟩]⟩⟩]), .apply, .apply,
        .req (packRequest 3 2 6 [⟨1, .app 5⟩, ⟨1, .app 6⟩])] fx' n' ∧
    (∀ q ∈ [joinRequest 3 6 6 ⟨2, 1, [⟨1, 1⟩, ⟨2, 2⟩]⟩,
        packRequest 3 0 6 [⟨1, .conf ⟨1, 0, conf3.servers⟩⟩, ⟨1, .conf ⟨2, 1, [⟨1, 1⟩, ⟨2, 2⟩]⟩⟩],
        packRequest 3 2 6 [⟨1, .app 5⟩, ⟨1, .app 6⟩]], q ∈ sends fx) ∧
    answers fx' = [joinAnswer 0 3 1, packAnswer 1 3 3 true, packAnswer 1 3 0 false] ∧
    s.role = .leader ∧ (s.config.servers.map SrvCfg.id) = [1, 2] ∧
    ∃ s', (Input.extResp .joining .syncReq (packAnswer 1 3 0 false)).run { s with trace := [] } = (.error .thrown, s') ∧
      s'.trace = [] ∧ s'.log = s.log := by
  obtain ⟨⟨d, up⟩, fx, h, hp⟩ := Node.witness (c := leader1) (n := Node.fresh conf3)
    (removeScript ++ [.go (.req (addReqOf 3)), .go (.extResp .joining .joinReq (joinAnswer 0 3 1)),
        .go (.extResp .joining .syncReq (packAnswer 1 3 3 true))])
    (fun n fx => [joinRequest 3 6 6 ⟨2, 1, [⟨1, 1⟩, ⟨2, 2⟩]⟩,
        packRequest 3 0 6 [⟨1, .conf ⟨1, 0, conf3.servers⟩⟩, ⟨1, .conf ⟨2, 1, [⟨1, 1⟩, ⟨2, 2⟩]⟩⟩],
        packRequest 3 2 6 [⟨1, .app 5⟩, ⟨1, .app 6⟩]].all (fun q => decide (q ∈ sends fx)) &&
      match n.up with
      | some s => decide (s.role = .leader) && decide ((s.config.servers.map SrvCfg.id) = [1, 2]) &&
        (match (Input.extResp .joining .syncReq (packAnswer 1 3 0 false)).run { s with trace := [] } with
        | (.error .thrown, s') => decide (s'.trace = []) && decide (s'.log = s.log)
        | _ => false)
      | none => false)
    (by decide +kernel)
  obtain ⟨n', fx', h', hp'⟩ := Node.witness (c := joiner 3) (n := Node.fresh (aloneConf 3))
    ([.start, .go (.req (joinRequest 3 6 6 ⟨2, 1, [⟨1, 1⟩, ⟨2, 2⟩]⟩)),
      .go (.req (packRequest 3 0 6 [⟨1, .conf ⟨1, 0, conf3.servers⟩⟩, ⟨1, .conf ⟨2, 1, [⟨1, 1⟩, ⟨2, 2⟩]⟩⟩])), .go .apply, .go .apply,
      .go (.req (packRequest 3 2 6 [⟨1, .app 5⟩, ⟨1, .app 6⟩]))])
    (fun _ fx => decide (answers fx = [joinAnswer 0 3 1, packAnswer 1 3 3 true, packAnswer 1 3 0 false]))
    (by decide +kernel)
  rcases up with _ | s
  · simp only [Bool.and_false] at hp; cases hp
  simp only [Bool.and_eq_true, decide_eq_true_eq, List.all_eq_true] at hp hp'
  obtain ⟨h1, ⟨h2, h3⟩, h4⟩ := hp
  refine ⟨d, s, fx, n', fx', h, h', h1, hp', h2, h3, ?_⟩
  rcases hr : (Input.extResp .joining .syncReq (packAnswer 1 3 0 false)).run { s with trace := [] } with ⟨e | u, s'⟩
  · rw [hr] at h4
    cases e
    case thrown =>
      simp only [Bool.and_eq_true, decide_eq_true_eq] at h4
      exact ⟨s', rfl, h4⟩
    all_goals cases h4
  · rw [hr] at h4; cases h4

end Cs.Raft
