import Verif.Buffer.Model

/-! # Model of the stream operators of `src/buffer.cxx` -/

namespace Cs.Buffer
open Cs

/-- An output stream: what has been written, and whether its state is good. `room` is the number of bytes that it can still take. -/
structure OStream where
  written : List Byte := []
  good : Bool := true
  room : Nat
  deriving DecidableEq, Repr

/-- An input stream: what is still to be read, and whether its state is good. -/
structure IStream where
  rest : List Byte
  good : Bool := true
  deriving DecidableEq, Repr

/-- `std::ostream::write` of these bytes: a stream that cannot take all of them takes some and is bad then. -/
def OStream.write (o : OStream) (bs : List Byte) : OStream :=
  if bs.length ≤ o.room then { o with written := o.written ++ bs, room := o.room - bs.length }
  else { written := o.written ++ bs.take o.room, good := false, room := 0 }

/-- `operator<<(std::ostream&, buffer&)`, buffer.cxx 269-284. The bytes are `data()[0 .. size() - pos())`; the buffer is not changed. -/
def putTo (b : Buf) : M OStream Unit := do
  let o ← get
  if o.good = false then throw .thrown
  else if b.pos + b.avail ≤ b.data.length then do
    set (o.write ((b.data.drop b.pos).take b.avail))
    if (o.write ((b.data.drop b.pos).take b.avail)).good = false then throw .thrown else pure ()
  else throw .ub

/-- `int size = buf.size() - buf.pos()`, buffer.cxx 294: as a number of bytes for `read`, which is not reasonable if it is negative. -/
def Buf.availInt (b : Buf) : Int := (BitVec.ofNat 32 b.avail).toInt

/-- `operator>>(std::istream&, buffer&)`, buffer.cxx 286-303. A stream that has too few bytes gives those that it has, and is bad then:
the buffer, part of which has been overwritten, is not given back in that case. -/
def getFrom (b : Buf) : M IStream Buf := do
  let i ← get
  if i.good = false then throw .thrown
  else if b.pos + min b.availInt.toNat i.rest.length > b.data.length then throw .ub
  else if b.availInt.toNat ≤ i.rest.length then do
    set ({ i with rest := i.rest.drop b.availInt.toNat } : IStream)
    pure { b with data := splice b.data b.pos (i.rest.take b.availInt.toNat) }
  else do
    set ({ rest := [], good := false } : IStream)
    throw .thrown

end Cs.Buffer
