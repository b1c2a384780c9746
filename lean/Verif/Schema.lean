import Verif.Multi
/-!
# Parsers composed of the functions of the library

A caller describes an ASN.1 type by nesting the combinators of the library, as the tests do
(/repo/tests/der_parser.rs:185-292, 358-561).  `Schema` is the
syntax of such compositions and `Schema.run` is the parser that results, for every composition: the
closure given to a combinator is the parser of the part.  The closure for a SEQUENCE or SET with a list of
components calls the parsers of the components one after the other and gives back the values and the octets
that are left, as `nom::sequence::tuple` does in the example of /repo/src/ber/multi.rs:121-157.
-/
namespace Verif
open Outcome

/-- Compositions of parsers.  The numbers are tag numbers. -/
inductive Schema where
  | any
  | typed (tag : Nat)
  | sequenceOf (s : Schema)
  | setOf (s : Schema)
  | sequence (l : List Schema)
  | set (l : List Schema)
  | explicit (tag : Nat) (s : Schema)
  | implicit (tag type : Nat)
  | optional (s : Schema)
  | explicitOptional (tag : Nat) (s : Schema)
  | choice (tag : Nat) (tags : List Nat)

/-- `nom::branch::alt` of typed parsers: the first answer that is not `Error`; if all are, the last one
(`append` and `or` of `BerError` keep the newer error).  Used with the parsers of this library in
/repo/tests/der_parser.rs:525-532. -/
def alt (p : Nat → Bytes → IRes BerError BerObject) (tag : Nat) (tags : List Nat) (i : Bytes) :
    IRes BerError BerObject :=
  match tags with
  | [] => p tag i
  | t :: ts =>
    match p tag i with
    | .err (.error _) => alt p t ts i
    | r => r

/-- The items of `nom::multi::many1` after the first one; the same loop as `many0`, with another error when an item
is read without progress.  Runs on fuel as `many0`. -/
def many1Rest (p : Bytes → IRes BerError BerObject) : Nat → Bytes → IRes BerError (List BerObject)
  | 0, _ => .diverge
  | fuel + 1, i =>
    match p i with
    | .err (.error _) => .ok (i, [])
    | .err e => .err e
    | .panic => .panic
    | .diverge => .diverge
    | .ok r =>
      if r.1.length = i.length then .err (.error (.nomError .many1))
      else many1Rest p fuel r.1 >>? fun s => .ok (s.1, r.2 :: s.2)

/-- `nom::multi::many1` for `BerError`: the error of the first item is kept (`append` of `BerError`); the first item
may be read without progress.  Used in the documentation, /repo/src/ber/multi.rs:96-119, 319-342;
/repo/src/der/multi.rs:97-120, 320-343. -/
def many1 (p : Bytes → IRes BerError BerObject) (i : Bytes) : IRes BerError (List BerObject) :=
  p i >>? fun r => many1Rest p (r.1.length + 1) r.1 >>? fun s => .ok (s.1, r.2 :: s.2)

mutual
/-- The parser: `parse_ber`/`parse_der` (/repo/src/ber/parser.rs:639-641, /repo/src/der/parser.rs:29-31);
`parse_ber_with_tag`/`parse_der_with_tag` (/repo/src/ber/parser.rs:233-245, /repo/src/der/parser.rs:70-82);
`parse_*_sequence_of`, `parse_*_set_of` (/repo/src/ber/multi.rs:34-39, 259-264; /repo/src/der/multi.rs:35-40,
260-265); `parse_*_sequence_defined`, `parse_*_set_defined` (/repo/src/ber/multi.rs:157-165, 380-388;
/repo/src/der/multi.rs:158-166, 381-389); `parse_*_tagged_explicit` (/repo/src/ber/tagged.rs:38-53,
/repo/src/der/tagged.rs:39-54); `parse_*_tagged_implicit` with `parse_*_content` (/repo/src/ber/tagged.rs:170-182,
/repo/src/der/tagged.rs:172-184); `parse_ber_optional` (/repo/src/ber/parser.rs:538-555);
`parse_*_explicit_optional` (/repo/src/ber/parser.rs:455-465, /repo/src/der/parser.rs:312-317, one function). -/
def Schema.run (D : Deps) (R : Rules) : Schema → Bytes → IRes BerError BerObject
  | .any => match R with
    | .ber => parseBer D
    | .der => parseDer D
  | .typed tag => match R with
    | .ber => parseBerWithTag D tag
    | .der => parseDerWithTag D tag
  | .sequenceOf s => Verif.sequenceOf R (s.run D R)
  | .setOf s => Verif.setOf R (s.run D R)
  | .sequence l => sequenceDefined R (Schema.runAll D R l)
  | .set l => setDefined R (Schema.runAll D R l)
  | .explicit tag s => taggedExplicit R tag (s.run D R)
  | .implicit tag type => match R with
    | .ber => taggedImplicit .ber tag (parseBerContent D type)
    | .der => taggedImplicit .der tag (parseDerContent D type)
  | .optional s => parseOptional (s.run D R)
  | .explicitOptional tag s => parseExplicitOptional tag (s.run D R)
  | .choice tag tags => match R with
    | .ber => alt (parseBerWithTag D) tag tags
    | .der => alt (parseDerWithTag D) tag tags
/-- The closure for a list of components: `map(tuple((a, b, ...)), |(a, b, ...)| vec![a, b, ...])`,
/repo/src/ber/multi.rs:135-142. -/
def Schema.runAll (D : Deps) (R : Rules) : List Schema → Bytes → IRes BerError (List BerObject)
  | [], i => .ok (i, [])
  | s :: l, i => s.run D R i >>? fun r => Schema.runAll D R l r.1 >>? fun q => .ok (q.1, r.2 :: q.2)
end

end Verif
