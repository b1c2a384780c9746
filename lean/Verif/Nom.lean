import Verif.Outcome
/-!
# Model of the parts of `nom` 7.1 used by der-parser

External crate; recorded in the trusted base (DESIGN.md section 2).
-/
namespace Verif
open Outcome

/-- `nom::Needed`. -/
inductive Needed where
  | unknown
  | size (n : Nat)
deriving DecidableEq, Repr

/-- `nom::Needed::new`: zero maps to `Unknown`. -/
def Needed.new (n : Nat) : Needed := if n = 0 then .unknown else .size n

/-- `nom::Err<E>`. -/
inductive NomErr (E : Type) where
  | incomplete (n : Needed)
  | error (e : E)
  | failure (e : E)
deriving DecidableEq, Repr

/-- `nom::Err::map` / `nom::Err::convert` (the latter with `f = From::from`). -/
def NomErr.map {E F : Type} (f : E → F) : NomErr E → NomErr F
  | .incomplete n => .incomplete n
  | .error e => .error (f e)
  | .failure e => .failure (f e)

/-- `nom::error::ErrorKind`, restricted to the kinds produced in this code base. -/
inductive ErrorKind where
  | eof | complete | many0 | many1 | mapRes
deriving DecidableEq, Repr

/-- `nom::IResult<&[u8], α, E>`. -/
abbrev IRes (E α : Type) := Outcome (NomErr E) (Bytes × α)

/-- `nom::bytes::streaming::take(n)`: `Incomplete(Needed::new(n - len))` when short.
Used at /repo/src/ber/parser.rs:33 and /repo/src/der/parser.rs:599. -/
def takeStreaming {E : Type} (n : Nat) (i : Bytes) : IRes E Bytes :=
  if i.length < n then .err (.incomplete (Needed.new (n - i.length)))
  else .ok (i.drop n, i.take n)

/-- `nom::combinator::cut`: `Error` becomes `Failure`.
Used at /repo/src/ber/multi.rs:74. -/
def cut {E α : Type} (p : Bytes → IRes E α) (i : Bytes) : IRes E α :=
  match p i with
  | .err (.error e) => .err (.failure e)
  | r => r

end Verif
