import Verif.Codec.Model
import Verif.Buffer.Ops
import Verif.Rpc.Model

/-!
# The wire format of RPC requests, as a specification

This is the layout two servers have to agree on, written down independently of the code: integers little-endian
(`le4`, `le8`), a header of 45 bytes, then the entries. The properties C10 - C13 refer to it.
-/

namespace Cs.Rpc
open Cs Cs.Buffer Cs.Codec

/-- Byte image of an entry with payload `d`. -/
def entryBytes (t : U64) (v : Byte) (d : List Byte) : List Byte :=
  le8 t ++ (v :: (le4 (BitVec.ofNat 32 d.length) ++ d))

/-- Term, type and payload bytes of an entry. -/
abbrev EView := U64 × Byte × List Byte

def EView.bytes (v : EView) : List Byte := entryBytes v.1 v.2.1 v.2.2

def viewsBytes (l : List EView) : List Byte := (l.map EView.bytes).flatten

/-- Byte image of a request header announcing `n` data bytes. -/
def headBytes (r : Req) (n : I32) : List Byte :=
  r.type :: (le4 r.src ++ (le4 r.dst ++ (le8 r.term ++ (le8 r.lastLogTerm ++ (le8 r.lastLogIdx ++ (le8 r.commitIdx ++
    le4 n))))))

/-- Log data that announces, after some complete entries, a payload longer than what is left. -/
def Overrun (D : List Byte) : Prop :=
  ∃ (vs : List EView) (t : U64) (vt : Byte) (sz : I32) (tail : List Byte),
    D = viewsBytes vs ++ (le8 t ++ vt :: (le4 sz ++ tail)) ∧ 0 ≤ sz.toInt ∧ tail.length < sz.toInt.toNat

/-- Log data that ends, after some complete entries, inside an entry header, or announces a negative length. -/
def Malformed (D : List Byte) : Prop :=
  ∃ (vs : List EView) (tail : List Byte), D = viewsBytes vs ++ tail ∧ ((0 < tail.length ∧ tail.length < 13) ∨
    ∃ (t : U64) (vt : Byte) (sz : I32) (tail' : List Byte), tail = le8 t ++ vt :: (le4 sz ++ tail') ∧ sz.toInt < 0)

end Cs.Rpc
