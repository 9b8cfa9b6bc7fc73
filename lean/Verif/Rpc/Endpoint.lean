/-!
# Addresses of servers

`asio_service::create_client`, src/asio_service.cxx 745-759: an address is matched against the regular expression

    ^tcp://(([a-zA-Z0-9\-]+\.)*([a-zA-Z0-9]+)):([0-9]+)$

and split into host and port. If it does not match there is no client (a null pointer).
-/

namespace Cs.Rpc

/-! ## The regular expression -/

/-- A set of strings. -/
abbrev Lang := List Char → Prop

/-- One character of a class. -/
def Lang.char (p : Char → Bool) : Lang := fun w => ∃ c, p c = true ∧ w = [c]
/-- One after the other. -/
def Lang.cat (A B : Lang) : Lang := fun w => ∃ u v, A u ∧ B v ∧ w = u ++ v
/-- `A*` -/
inductive Lang.star (A : Lang) : Lang
  | nil : Lang.star A []
  | cons {u v : List Char} : A u → Lang.star A v → Lang.star A (u ++ v)
/-- `A+` -/
def Lang.plus (A : Lang) : Lang := Lang.cat A (Lang.star A)

/-- `[0-9]` -/
def isDigit (c : Char) : Bool := '0' ≤ c && c ≤ '9'
/-- `[a-zA-Z0-9]` -/
def isAlnum (c : Char) : Bool := ('a' ≤ c && c ≤ 'z') || ('A' ≤ c && c ≤ 'Z') || isDigit c
/-- `[a-zA-Z0-9\-]` -/
def isHost (c : Char) : Bool := isAlnum c || c == '-'

/-- `(([a-zA-Z0-9\-]+\.)*([a-zA-Z0-9]+))`, line 749. -/
def hostLang : Lang :=
  .cat (.star (.cat (.plus (.char isHost)) (.char (· == '.')))) (.plus (.char isAlnum))
/-- `([0-9]+)`, line 749. -/
def portLang : Lang := .plus (.char isDigit)

/-! ## `create_client` -/

/-- The text up to the first `c`, and the text behind it. -/
def splitAt (c : Char) : List Char → Option (List Char × List Char)
  | [] => none
  | x :: xs => if x = c then some ([], xs) else (splitAt c xs).map fun p => (x :: p.1, p.2)

/-- Is this the rest of a host? `fresh`: no character of the label has been read. `hyphen`: the label has a hyphen. -/
def okHost (fresh hyphen : Bool) : List Char → Bool
  | [] => !fresh && !hyphen
  | c :: cs => if c = '.' then !fresh && okHost true false cs else isHost c && okHost false (hyphen || c == '-') cs

/-- The scheme. -/
def scheme : List Char := ['t', 'c', 'p', ':', '/', '/']

/-- Host and port of the client that `create_client` makes, if any, src/asio_service.cxx 745-759. -/
def createClient (e : List Char) : Option (List Char × List Char) :=
  if e.take 6 = scheme then
    match splitAt ':' (e.drop 6) with
    | some (h, p) => if okHost true false h && (!p.isEmpty && p.all isDigit) then some (h, p) else none
    | none => none
  else none

end Cs.Rpc
