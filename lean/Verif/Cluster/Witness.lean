import Verif.Cluster.Play

/-!
# Executions of clusters of three and of five servers

The scripts of the counterexamples and of the cases that meet the hypotheses of the theorems.
-/

namespace Cs.Raft.Witness
open Cs Cs.Raft

/-- Three servers. -/
def trio : Cluster :=
  { servers := [⟨1, 0⟩, ⟨2, 0⟩, ⟨3, 0⟩], config := fun _ => ⟨0, 0, [⟨1, 0⟩, ⟨2, 0⟩, ⟨3, 0⟩]⟩ }

/-- The same, with at most one entry in an append request. -/
def trio1 : Cluster := { trio with params := fun _ => { maxAppend := 1 } }

theorem trio_ok : trio.Ok := ⟨by decide, by decide, fun _ => rfl, fun _ => rfl⟩
theorem trio1_ok : trio1.Ok := ⟨by decide, by decide, fun _ => rfl, fun _ => rfl⟩

/-- Server `i` (1 or 3) is elected in term 1 by the next one, and all servers store and apply the configuration. -/
def opening (i : Int) : List Play :=
  [.start 1, .start 2, .start 3, .election i, .recv 3, .back 3 7, .recv 11, .recv 12, .back 11 16, .back 12 18, .recv 20,
   .recv 21, .apply 1, .apply 2, .apply 3]

/-- Server 1 appends command 7 and crashes; server 2 is elected in term 2 by server 3, appends 8 and crashes; server 1 is
elected in term 3, and server 3 stores 7. -/
def older : List Play :=
  [.clientKill 1 7 1, .election 2, .recv 33, .back 33 37, .clientKill 2 8 1, .start 1, .election 1, .election 1, .recv 50,
   .back 50 54, .recv 58, .back 58 59, .recv 60, .back 60 63, .apply 1, .apply 1]

/-- Server 1 has applied command 7 of term 1 in term 3; it crashes, server 2 is elected in term 4, and its command 8 of term 2
replaces 7 on server 3. -/
def newer : List Play :=
  [.kill 1, .start 2, .election 2, .election 2, .recv 75, .back 75 79, .recv 83, .back 83 84, .recv 85, .back 85 89, .apply 2,
   .apply 2]

/-- Server 2 is leader of term 2 and sends an append request to server 1, which is candidate of term 3 already and refuses;
the answer is late. Server 1 is elected; command 7 is stored by servers 1 and 2 and committed; command 9 is in the log of
server 1 only. Server 2 is elected in term 4; command 8 is stored by servers 2 and 3, committed and applied. Now the late
answer arrives. -/
def late : List Play :=
  [.election 2, .recv 32, .back 32 36, .election 1, .election 1, .recv 39, .recv 48, .back 48 53, .recv 56, .client 1 7,
   .back 56 60, .recv 64, .back 64 67, .recv 69, .client 1 9, .election 2, .recv 78, .back 78 82, .recv 86, .client 2 8,
   .back 86 87, .recv 91, .back 91 95, .recv 96, .back 96 99, .apply 2, .apply 2, .back 39 49]

/-- Servers 1 and 3 store commands 7 and 9 of term 1 in term 3; the positive answer of server 3 is late. Server 2 is elected in
term 4 and replaces 7 and 9 on server 1 by command 8. Server 1 is elected again in term 5. -/
def again : List Play :=
  [.client 1 7, .clientKill 1 9 1, .election 2, .recv 36, .back 36 40, .clientKill 2 8 1, .start 1, .election 1, .election 1,
   .recv 53, .back 53 57, .recv 61, .back 61 62, .recv 63, .start 2, .election 2, .election 2, .recv 75, .back 75 80, .recv 83,
   .back 83 85, .recv 86, .election 1, .recv 93, .back 93 98]

/-- Server 2 sends entry 2 and the commit index 3 to server 1. -/
def beyond : List Play := [.recv 85, .recv 104, .apply 1, .apply 1]

/-- Five servers. -/
def five : Cluster :=
  { servers := [⟨1, 0⟩, ⟨2, 0⟩, ⟨3, 0⟩, ⟨4, 0⟩, ⟨5, 0⟩],
    config := fun _ => ⟨0, 0, [⟨1, 0⟩, ⟨2, 0⟩, ⟨3, 0⟩, ⟨4, 0⟩, ⟨5, 0⟩]⟩ }

theorem five_ok : five.Ok := ⟨by decide, by decide, fun _ => rfl, fun _ => rfl⟩

/-- Server 1 is elected in term 1 by 2 and 3, and everybody stores its configuration. Server 1 appends commands 7, 8 and 9 and
server 2 confirms them. Server 3 is elected in term 2 by 4 and 5, and the logs of servers 1 and 2 are cut. -/
def recorded : List Play :=
  [.start 1, .start 2, .start 3, .start 4, .start 5, .election 1, .recv 2, .back 2 9, .recv 3, .back 3 13, .recv 17,
   .back 17 22, .recv 18, .back 18 24, .recv 19, .back 19 31, .recv 20, .back 20 36, .recv 26, .back 26 39, .client 1 7,
   .client 1 8, .client 1 9, .recv 42, .back 42 52, .recv 53, .back 53 58, .election 3, .recv 63, .back 63 68, .recv 64,
   .back 64 72, .recv 76, .recv 77]

/-- Server 1 is elected again, in term 3, by 4 and 5. It appends commands 10 and 11, server 4 confirms them, and server 1
applies them. -/
def minority : List Play :=
  [.election 1, .recv 94, .back 94 99, .recv 95, .back 95 103, .client 1 10, .client 1 11, .recv 108, .back 108 116, .recv 117,
   .back 117 124, .apply 1, .apply 1, .apply 1, .apply 1]

/-- Server 2 is elected in term 4 by 3 and 5. Its command 20 is stored by these, and applied by server 2. -/
def replaced : List Play :=
  [.election 2, .election 2, .recv 140, .back 140 146, .recv 142, .back 142 150, .client 2 20, .recv 155, .back 155 163,
   .recv 157, .back 157 165, .recv 164, .back 164 169, .recv 166, .back 166 175, .apply 2, .apply 2, .apply 2, .apply 2]

/-- Server 1 is elected in term 1 and appends commands 7, 8 and 9, which nobody gets; server 3 asks for votes in term 2, and
server 1 is elected again in term 3 by 2 and 3. Server 2 stores the entries of server 1, and its positive answer is late. -/
def unheard : List Play :=
  [.start 1, .start 2, .start 3, .start 4, .start 5, .election 1, .recv 2, .back 2 9, .recv 3, .back 3 13, .client 1 7,
   .client 1 8, .client 1 9, .election 3, .recv 32, .election 1, .recv 41, .back 41 48, .recv 42, .back 42 52, .recv 55,
   .back 55 59, .recv 60]

/-- Server 3 is elected in term 4 by 4 and 5, and the logs of servers 1 and 2 are cut. Server 1 is elected in term 5 by 4 and 5
and appends commands 10, 11 and 12; server 4 confirms them. Now the late answer of server 2 arrives, and server 1 commits and
applies. -/
def arrives : List Play :=
  [.election 3, .recv 73, .back 73 78, .recv 74, .back 74 82, .recv 86, .recv 87, .election 1, .recv 102, .back 102 107,
   .recv 103, .back 103 111, .client 1 10, .client 1 11, .client 1 12, .recv 116, .back 116 127, .recv 128, .back 128 136,
   .back 60 68, .apply 1, .apply 1, .apply 1, .apply 1]

/-- Server 2 is elected in term 6 by 3 and 5. Its command 20 is stored by these, and applied by server 2. -/
def supplants : List Play :=
  [.election 2, .election 2, .recv 153, .back 153 159, .recv 155, .back 155 163, .client 2 20, .recv 168, .back 168 175,
   .recv 170, .back 170 177, .recv 176, .back 176 181, .recv 178, .back 178 186, .apply 2, .apply 2, .apply 2]

end Cs.Raft.Witness
