import Verif.Text.Model
import Verif.Raft.PropsLeader
import Verif.Raft.Play

/-!
# C103: messages in the log are complete and right

No message is written beyond its buffer. All messages except those of `wrong`, `cut`, `texts` and `signed` are written in full, for all
values. The others: undefined behaviour, lost ends, and a negative term.
-/

namespace Cs.Text

/-- `%d` with a `size_t`. -/
def wrong : List (String × Nat) :=
  [("asio_service.cxx", 694), ("raft_server.cxx", 684), ("raft_server.cxx", 700), ("raft_server.cxx", 838), ("raft_server_req_handlers.cxx", 27)]

/-- Too long for the buffer with large numbers. -/
def cut : List (String × Nat) := [("raft_server.cxx", 874), ("raft_server_resp_handlers.cxx", 202)]

/-- With a text of any length. -/
def texts : List (String × Nat) :=
  [("asio_service.cxx", 295), ("asio_service.cxx", 422), ("raft_server.cxx", 614), ("raft_server.cxx", 944),
   ("raft_server_resp_handlers.cxx", 28), ("raft_server_resp_handlers.cxx", 390)]

/-- `%lld` with a `ulong`. -/
def signed : List (String × Nat) := [("raft_server_resp_handlers.cxx", 215)]

def Site.at (s : Site) : String × Nat := (s.file, s.line)

/-- Whether a conversion prints what the type holds, and the greatest length of the result. -/
def widest : Spec → ArgTy → Option Nat
  | .d, .i32 => some 11
  | .llu, .u64 => some 20
  | .s, .name => some 25
  | _, _ => none

def bound : List Piece → List ArgTy → Option Nat
  | [], _ => some 0
  | .lit _ :: ps, ts => (bound ps ts).map (· + 1)
  | .conv _ :: _, [] => none
  | .conv k :: ps, t :: ts =>
    match widest k t, bound ps ts with
    | some x, some y => some (x + y)
    | _, _ => none

theorem dec_length {n k : Nat} (hk : 0 < k) (h : n < 10 ^ k) : (dec n).length ≤ k :=
  (Nat.length_toDigits_le_iff (by decide) hk).2 h

theorem show_length {k : Spec} {t : ArgTy} {a : Arg} {m : Nat} (h : widest k t = some m) (ha : a.Of t) :
    ∃ x, k.show a = some x ∧ x.length ≤ m := by
  cases k <;> cases t <;> simp only [widest, Option.some.injEq, reduceCtorEq] at h <;> subst h <;> cases a <;>
    simp only [Arg.Of] at ha <;> refine ⟨_, rfl, ?_⟩
  · unfold decInt
    split
    · exact Nat.succ_le_succ (dec_length (k := 10) (by decide) (by omega))
    · exact Nat.le_succ_of_le (dec_length (k := 10) (by decide) (by omega))
  · exact dec_length (by decide) (by omega)
  · obtain ⟨x, hx, rfl⟩ := ha
    revert x
    decide +kernel

theorem render_length : ∀ {ps : List Piece} {ts : List ArgTy} {as : List Arg} {m : Nat}, bound ps ts = some m → ArgsOf ts as →
    ∃ x, render ps as = some x ∧ x.length ≤ m
  | [], _, _, _, _, _ => ⟨[], rfl, Nat.zero_le _⟩
  | .lit c :: ps, ts, as, m, h, ha => by
    simp only [bound, Option.map_eq_some_iff] at h
    obtain ⟨n, hn, rfl⟩ := h
    obtain ⟨x, hx, hl⟩ := render_length hn ha
    exact ⟨c :: x, by simp only [render, hx, Option.map_some], Nat.succ_le_succ hl⟩
  | .conv k :: ps, [], as, m, h, ha => by cases h
  | .conv k :: ps, t :: ts, [], m, h, ha => by cases ha
  | .conv k :: ps, t :: ts, a :: as, m, h, ha => by
    cases h1 : widest k t with
    | none => simp only [bound, h1, reduceCtorEq] at h
    | some x =>
      cases h2 : bound ps ts with
      | none => simp only [bound, h1, h2, reduceCtorEq] at h
      | some y =>
        simp only [bound, h1, h2, Option.some.injEq] at h
        subst h
        obtain ⟨u, hu, hul⟩ := show_length h1 ha.1
        obtain ⟨v, hv, hvl⟩ := render_length h2 ha.2
        exact ⟨u ++ v, by simp only [render, hu, hv], by rw [List.length_append]; omega⟩

/-- C103: no message is longer than its buffer, with the final 0. -/
theorem message_fits {s : Site} (hs : s ∈ sites) {as : List Arg} {x : List Char} (h : s.fmt as = some x) : x.length + 1 ≤ s.room := by
  have hr : ∀ s ∈ sites, 0 < s.room := by decide +kernel
  have := hr s hs
  unfold Site.fmt at h
  obtain ⟨y, _, rfl⟩ := Option.map_eq_some_iff.1 h
  rw [List.length_take]
  omega

/-- C103, `_partial`: for all values of the arguments, every message that is not in one of the four lists is defined and written in full.
Missing: those in the lists, see below. -/
theorem message_whole_partial {s : Site} (hs : s ∈ sites) (h1 : s.at ∉ wrong) (h2 : s.at ∉ cut) (h3 : s.at ∉ texts) (h4 : s.at ∉ signed)
    {as : List Arg} (ha : ArgsOf s.args as) : ∃ x, s.whole as = some x ∧ s.fmt as = some x := by
  have hb : ∀ s ∈ sites, s.at ∉ wrong → s.at ∉ cut → s.at ∉ texts → s.at ∉ signed →
      ((bound (parse s.format.toList) s.args).any fun m => decide (m ≤ s.room - 1)) = true := by decide +kernel
  have hb := hb s hs h1 h2 h3 h4
  cases hm : bound (parse s.format.toList) s.args with
  | none => rw [hm] at hb; cases hb
  | some m =>
    rw [hm] at hb
    have hb : m ≤ s.room - 1 := of_decide_eq_true hb
    obtain ⟨x, hx, hl⟩ := render_length hm ha
    refine ⟨x, hx, ?_⟩
    unfold Site.fmt
    rw [show s.whole as = some x from hx, Option.map_some, List.take_of_length_le (by omega)]

/-- 59 of the 73 messages are like that; one of them. -/
example : (sites.filter fun s => decide (s.at ∉ wrong ++ cut ++ texts ++ signed)).length = 59 ∧ sites.length = 73 ∧
    ((sites.find? fun s => decide (s.at = ("raft_server.cxx", 332))).bind
      (·.fmt [.text "vote_request".toList, .i32 (-3), .u64 18446744073709551615])) =
        some "send vote_request to server -3 with term 18446744073709551615".toList := by decide +kernel

/-- Some `%d` meets a `size_t`. -/
def clash : List Piece → List ArgTy → Bool
  | .lit _ :: ps, ts => clash ps ts
  | .conv k :: ps, t :: ts => (decide (k = .d) && decide (t = .size)) || clash ps ts
  | _, _ => false

theorem render_none : ∀ {ps : List Piece} {ts : List ArgTy} {as : List Arg}, ArgsOf ts as → clash ps ts = true → render ps as = none
  | [], _, _, _, h => by cases h
  | .lit c :: ps, ts, as, ha, h => by
    simp only [render, render_none (ps := ps) ha h, Option.map_none]
  | .conv k :: ps, [], as, ha, h => by cases h
  | .conv k :: ps, t :: ts, [], ha, h => by cases ha
  | .conv k :: ps, t :: ts, a :: as, ha, h => by
    simp only [clash, Bool.or_eq_true, Bool.and_eq_true, decide_eq_true_eq] at h
    rcases h with ⟨rfl, rfl⟩ | h
    · cases a with
      | size n => rfl
      | _ => exact absurd ha.1 (by simp only [Arg.Of, not_false_eq_true])
    · simp only [render, render_none (ps := ps) ha.2 h]
      cases k.show a <;> rfl

/-- C103 fails: the messages of `wrong` are undefined, for all values. The first is in front of every line of the log. -/
theorem message_undefined {s : Site} (hs : s ∈ sites) (h : s.at ∈ wrong) {as : List Arg} (ha : ArgsOf s.args as) : s.fmt as = none := by
  have hw : ∀ s ∈ sites, s.at ∈ wrong → clash (parse s.format.toList) s.args = true := by decide +kernel
  unfold Site.fmt
  rw [show s.whole as = none from render_none ha (hw s hs h)]
  rfl

example : (sites.filter fun s => decide (s.at ∈ wrong)).length = 5 := by decide +kernel

/-- Arguments that make a message long. -/
def long : List ArgTy → List Arg := List.map fun t => match t with
  | .i32 => .i32 (-2147483648)
  | .u64 => .u64 18446744073709551615
  | .size => .size 0
  | .name => .text "unknown".toList
  | .str => .text (List.replicate 200 'x')

theorem long_of : ∀ ts : List ArgTy, ArgsOf ts (long ts)
  | [] => trivial
  | .i32 :: ts => ⟨by simp only [Arg.Of]; omega, long_of ts⟩
  | .u64 :: ts => ⟨by simp only [Arg.Of]; omega, long_of ts⟩
  | .size :: ts => ⟨by simp only [Arg.Of]; omega, long_of ts⟩
  | .name :: ts => ⟨⟨"unknown", by decide, rfl⟩, long_of ts⟩
  | .str :: ts => ⟨trivial, long_of ts⟩

/-- C103 fails: each of the messages of `cut` and `texts` loses its end for some values. -/
theorem message_cut {s : Site} (hs : s ∈ sites) (h : s.at ∈ cut ++ texts) :
    ∃ as x y, ArgsOf s.args as ∧ s.whole as = some x ∧ s.fmt as = some y ∧ y.length < x.length := by
  have hw : ∀ s ∈ sites, s.at ∈ cut ++ texts → ((s.whole (long s.args)).any fun x => decide (s.room - 1 < x.length)) = true := by
    decide +kernel
  have hw := hw s hs h
  cases hx : s.whole (long s.args) with
  | none => rw [hx] at hw; cases hw
  | some x =>
    rw [hx] at hw
    have hw : s.room - 1 < x.length := of_decide_eq_true hw
    refine ⟨_, x, x.take (s.room - 1), long_of _, hx, by unfold Site.fmt; rw [hx]; rfl, ?_⟩
    rw [List.length_take]
    omega

example : (sites.filter fun s => decide (s.at ∈ cut ++ texts)).length = 8 := by decide +kernel

/-- C103 fails: the message about a second vote shows every term from 2^63 on as a negative number. -/
theorem term_negative {s : Site} (hs : s ∈ sites) (h : s.at ∈ signed) {v : Int} {t : Nat} (h1 : 2 ^ 63 ≤ t) (h2 : t < 2 ^ 64) :
    s.whole [.i32 v, .u64 t] =
      some ("Duplicate vote from ".toList ++ decInt v ++ " for term -".toList ++ dec ((t : Int) - 2 ^ 64).natAbs) := by
  have hf : ∀ s ∈ sites, s.at ∈ signed → parse s.format.toList =
      "Duplicate vote from ".toList.map .lit ++ .conv .d :: " for term ".toList.map .lit ++ [.conv .lld] := by decide +kernel
  unfold Site.whole
  rw [hf s hs h]
  have e : decInt (if t < 2 ^ 63 then (t : Int) else (t : Int) - 2 ^ 64) = '-' :: dec ((t : Int) - 2 ^ 64).natAbs := by
    rw [if_neg (by omega)]
    unfold decInt
    rw [if_pos (by omega)]
  simpa [render, Spec.show] using e

example : ((sites.find? fun s => decide (s.at ∈ signed)).bind (·.fmt [.i32 2, .u64 18446744073709551615])) =
    some "Duplicate vote from 2 for term -1".toList := by decide +kernel

end Cs.Text

namespace Cs.Raft

/-- C103 fails: if a member needs a snapshot and the leader has none, the message that says so uses the null pointer: the behaviour is
undefined, and the exit after it is not reached. -/
theorem no_snapshot_undefined {r : PeerRef} {p : Peer} {s : Srv} (hp : s.peer r = some p) (h1 : p.snpCtx = none) (h2 : s.lastSnap = none)
    (i t c : Nat) : createSyncSnapshotReq r i t c s = (.error .ub, s) := by
  have e1 : getPeer r s = (.ok p, s) := by
    unfold getPeer
    rw [bind_get, hp]
    rfl
  have e2 : chooseSnap r i s = (.error .ub, s) := by
    unfold chooseSnap
    rw [bind_get, run_bind_ok e1, h1, h2]
    rfl
  unfold createSyncSnapshotReq
  exact run_bind_err e2

/-- A leader without snapshot, with members: a history leads there. (For the request to be made the start of its log must have been removed,
which a state machine that loses its snapshot brings about.) -/
example : ∃ (d : Disk) (s : Srv) (fx : List Eff), Hist ⟨1, {}, Env.plain⟩ (Node.fresh conf3) [.electionTimeout, voteRespOf 2 1 true] fx ⟨d, some s⟩ ∧
    s.role = .leader ∧ s.lastSnap = none ∧ (s.peer (.member 2)).any (fun p => p.snpCtx.isNone) = true := by
  obtain ⟨⟨d, up⟩, fx, h, hp⟩ := Node.witness (c := ⟨1, {}, Env.plain⟩) (n := Node.fresh conf3)
    [.start, .go .electionTimeout, .go (voteRespOf 2 1 true)]
    (fun n _ => n.up.any fun (s : Srv) => decide (s.role = .leader) && (s.lastSnap.isNone && (s.peer (.member 2)).any fun p => p.snpCtx.isNone))
    (by decide +kernel)
  cases up with
  | none => cases hp
  | some s =>
    have hp : (decide (s.role = .leader) && (s.lastSnap.isNone && (s.peer (.member 2)).any fun p => p.snpCtx.isNone)) = true := hp
    rw [Bool.and_eq_true, Bool.and_eq_true, decide_eq_true_eq, Option.isNone_iff_eq_none] at hp
    exact ⟨d, s, fx, h, hp.1, hp.2.1, hp.2.2⟩

end Cs.Raft
