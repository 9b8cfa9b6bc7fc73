import Verif.Link.Props
import Verif.Raft.Shape
import Verif.Raft.PropsMember

/-!
# C87 for whole runs: every message of a server is received as it was sent

`ReqOk` (Link/Props.lean) asks for the form of the request. Servers keep to the form (Raft/Shape.lean), so that for their messages only
ranges and sizes are left.
-/

namespace Cs.Link
open Cs Cs.Buffer Cs.Codec

/-- The numbers in the request fit in their fields, and the dictionary recognises commands and log pack. Nothing is said about the
form of the request or about the servers in it. -/
structure Fits (D : Dict) (r : Raft.Req) : Prop where
  src : I32Ok r.src
  dst : I32Ok r.dst
  term : U64Ok r.term
  lastTerm : U64Ok r.lastTerm
  lastIdx : U64Ok r.lastIdx
  commitIdx : U64Ok r.commitIdx
  terms : ∀ e ∈ r.entries, U64Ok e.term
  commands : ∀ e ∈ r.entries, ∀ d, e.val = .app d → Reach (D.command d) ∧ D.commandOf (D.command d).data = d
  confs : ∀ e ∈ r.entries, ∀ c, e.val = .conf c → U64Ok c.logIdx ∧ U64Ok c.prevLogIdx
  ids : ∀ e ∈ r.entries, ∀ i, e.val = .rmId i → I32Ok i
  packed : D.packOf (D.pack r.pack) = r.pack
  sync : ∀ q, r.sync = some q → U64Ok q.snap.lastIdx ∧ U64Ok q.snap.lastTerm ∧ U64Ok q.snap.size ∧
    (U64Ok q.snap.config.logIdx ∧ U64Ok q.snap.config.prevLogIdx) ∧ U64Ok q.offset

theorem Fits.ok {D : Dict} {r : Raft.Req} (h : Fits D r) (hs : r.Shaped (SrvOk D)) : ReqOk D r where
  src := h.src
  dst := h.dst
  term := h.term
  lastTerm := h.lastTerm
  lastIdx := h.lastIdx
  commitIdx := h.commitIdx
  entries e he := by
    refine ⟨h.terms e he, ?_⟩
    have h1 := hs.entries e he
    cases hv : e.val with
    | app d => exact h.commands e he d hv
    | conf c =>
      rw [hv] at h1
      obtain ⟨a, b⟩ := h.confs e he c hv
      exact ⟨a, b, h1.conf⟩
    | srv c =>
      rw [hv] at h1
      refine ⟨h1.srv, fun ht => ?_⟩
      rw [ht] at h1; cases h1
    | rmId i =>
      rw [hv] at h1
      refine ⟨h.ids e he i hv, ?_⟩
      cases ht : r.type <;> rw [ht] at h1 <;> first | rfl | cases h1
    | logPack => trivial
    | snpSync => trivial
  pack := hs.packed
  packed := h.packed
  sync q hq := by
    obtain ⟨a, b⟩ := hs.sync q hq
    obtain ⟨c1, c2, c3, c4, c5⟩ := h.sync q hq
    exact ⟨⟨c1, c2, c3, ⟨c4.1, c4.2, a⟩, c5⟩, b⟩
  block := hs.block

/-- C87 for whole runs (partial): a server that has only ever been given requests of the right form, and whose disk at the beginning is
of the right form, sends only requests that the other side receives as they were sent. Missing: numbers that do not fit, requests of
more than 16 MiB, snapshot blocks that the state machine does not leave at their start. -/
theorem server_sent_received_partial (D : Dict) (junk junk' : Byte) {c : Raft.Setup} {n n' : Raft.Node} {xs : List Raft.Input}
    {fx : List Raft.Eff} (h : Raft.Hist c n xs fx n') (hn : n.Shaped (SrvOk D)) (hx : ∀ x ∈ xs, x.Shaped (SrvOk D)) {r : Raft.Req}
    (hr : .send r ∈ fx) (hf : Fits D r) (hl : ∀ q, r.sync = some q → D.left q.data = 0) (hs : reqSize D r ≤ 0x1000000)
    (rest : List Byte) :
    ∃ w b s w' s', wire D junk r = .ok w ∧ Rpc.encodeReq junk w = .ok b ∧ Rpc.Session.new junk' = .ok s ∧
      Rpc.receive junk' s (b.content ++ rest) = .request w' s' rest ∧ unwire D junk' w' = .ok r :=
  sent_received_partial D junk junk' r (hf.ok ((h.shaped hn hx).2 _ hr)) hl hs rest

/-- The requests that arrive in a run are of the right form again: what one server has sent may be given to the next. -/
theorem server_sends_shaped {D : Dict} {c : Raft.Setup} {n n' : Raft.Node} {xs : List Raft.Input}
    {fx : List Raft.Eff} (h : Raft.Hist c n xs fx n') (hn : n.Shaped (SrvOk D)) (hx : ∀ x ∈ xs, x.Shaped (SrvOk D)) {r : Raft.Req}
    (hr : .send r ∈ fx) : (Raft.Input.req r).Shaped (SrvOk D) := (h.shaped hn hx).2 _ hr

/-! ## Concrete case -/

/-- Server 1 becomes leader, is asked to add server 4 and is given a command of five bytes. -/
def runScript : List Raft.Move :=
  Raft.electScript ++ [.go (.req (Raft.addReqOf 4)), .go (.replicate 5), .go (Raft.appendRespOf 2 1 2)]

theorem runScript_shaped : ∀ x ∈ runScript.flatMap Raft.Move.input, x.Shaped (SrvOk (dict 0)) := by
  intro x hx
  simp only [runScript, Raft.electScript, List.cons_append, List.nil_append, List.flatMap_cons, List.flatMap_nil, Raft.Move.input,
    List.mem_cons, List.not_mem_nil, or_false] at hx
  rcases hx with rfl | rfl | rfl | rfl | rfl | rfl | rfl
  · trivial
  · trivial
  · trivial
  · trivial
  · refine Raft.Req.shaped_simple (fun e he => ?_) (fun h => (by cases h)) rfl rfl
    rw [List.mem_singleton.1 he]
    exact dict_srv 0 (by decide)
  · trivial
  · trivial

theorem fresh_shaped {D : Dict} (h : ∀ c : Raft.SrvCfg, I32Ok c.id → SrvOk D c) : (Raft.Node.fresh Raft.conf3).Shaped (SrvOk D) := by
  refine ⟨⟨fun s hs => ?_, fun e he => (by cases he), fun q hq => (by cases hq)⟩, fun s hs => (by cases hs)⟩
  refine h s ?_
  revert s
  show ∀ s ∈ [(⟨1, 1⟩ : Raft.SrvCfg), ⟨2, 2⟩, ⟨3, 3⟩], I32Ok s.id
  decide

/-- What it sends to server 2 then. -/
def runReq : Raft.Req :=
  { type := .appendReq, src := 1, dst := 2, term := 1, lastTerm := 1, lastIdx := 1, commitIdx := 1, entries := [⟨1, .app 5⟩] }

theorem runReq_fits : Fits (dict 0) runReq := by
  refine ⟨by decide, by decide, by decide, by decide, by decide, by decide, by decide, ?_, ?_, ?_, rfl, fun _ h => (by cases h)⟩
  · intro e he d hd
    rw [List.mem_singleton.1 he] at hd
    cases hd
    exact dict_app 0 (t := .appendReq) (by decide)
  · intro e he c hc
    rw [List.mem_singleton.1 he] at hc; cases hc
  · intro e he c hc
    rw [List.mem_singleton.1 he] at hc; cases hc

example (rest : List Byte) : ∃ n fx, Raft.Hist Raft.node1 (Raft.Node.fresh Raft.conf3) (runScript.flatMap Raft.Move.input) fx n ∧
    .send runReq ∈ fx ∧ ∃ w b s w' s', wire (dict 0) 0 runReq = .ok w ∧ Rpc.encodeReq 0 w = .ok b ∧ Rpc.Session.new 9 = .ok s ∧
      Rpc.receive 9 s (b.content ++ rest) = .request w' s' rest ∧ unwire (dict 0) 9 w' = .ok runReq := by
  obtain ⟨n, fx, h, hp⟩ := Raft.Node.witness (c := Raft.node1) (n := Raft.Node.fresh Raft.conf3) runScript
    (fun _ fx => fx.contains (.send runReq)) (by decide +kernel)
  have hm : .send runReq ∈ fx := by simpa using hp
  refine ⟨n, fx, h, hm, server_sent_received_partial (dict 0) 0 9 h (fresh_shaped fun _ => dict_srv 0) runScript_shaped hm ?_ (fun _ h => (by cases h)) ?_ rest⟩
  · exact runReq_fits
  · have := (bufAt_ok (bs := List.replicate 5 7) 1 (by decide)).2
    show 13 + (bufAt (List.replicate 5 7) 1).data.length + 0 ≤ _
    rw [this]; decide

end Cs.Link
