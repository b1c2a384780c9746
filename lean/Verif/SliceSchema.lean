import Verif.Slice
import Verif.Schema
/-!
# Composed parsers on slices that know where they lie

The combinators of `Verif/Multi.lean` and the compositions of `Verif/Schema.lean` on the slices of
`Verif/Slice.lean`, as there: what is borrowed from the input is a slice, what is copied is a value.
-/
namespace Verif
open Outcome

section
variable {E O T : Type} [ParseErr E]

/-- `parse_*_sequence_defined_g`, `parse_*_set_defined_g`, /repo/src/ber/multi.rs:220-232, 444-455;
/repo/src/der/multi.rs:221-233, 445-456. -/
def sDefinedG (R : Rules) (tag : Nat) (mem : Bytes) (f : Slice → SHeader → SRes E O) : Slice → SRes E O :=
  sContainer R mem fun c hdr => liftResE ((hdr.read mem).assertTag tag) >>? fun _ => f c hdr

/-- `nom::combinator::cut`. -/
def sCut (p : Slice → SRes E O) (s : Slice) : SRes E O :=
  match p s with
  | .err (.error e) => .err (.failure e)
  | r => r

/-- `nom::combinator::complete`. -/
def sComplete (mem : Bytes) (p : Slice → SRes E O) (s : Slice) : SRes E O :=
  match p s with
  | .err (.incomplete _) => .err (.error (ParseErr.ofKind (s.read mem) .complete))
  | r => r

/-- `nom::multi::many0`, as `many0`: the lengths of two slices are compared. -/
def sMany0 (mem : Bytes) (p : Slice → SRes E T) : Nat → Slice → SRes E (List T)
  | 0, _ => .diverge
  | fuel + 1, s =>
    match p s with
    | .err (.error _) => .ok (s, [])
    | .err e => .err e
    | .panic => .panic
    | .diverge => .diverge
    | .ok r =>
      if r.1.len = s.len then .err (.error (ParseErr.ofKind (s.read mem) .many0))
      else sMany0 mem p fuel r.1 >>? fun t => .ok (t.1, r.2 :: t.2)

/-- `nom::combinator::all_consuming`. -/
def sAllConsuming (mem : Bytes) (p : Slice → SRes E O) (s : Slice) : SRes E O :=
  p s >>? fun r =>
    if r.1.len = 0 then .ok r else .err (.error (ParseErr.ofKind (r.1.read mem) .eof))

/-- `parse_*_sequence_of_v`, `parse_*_set_of_v`, /repo/src/ber/multi.rs:68-77, 293-300;
/repo/src/der/multi.rs:69-78, 294-301. -/
def sOfV (R : Rules) (tag : Nat) (mem : Bytes) (f : Slice → SRes E T) : Slice → SRes E (List T) :=
  sDefinedG R tag mem fun data _ =>
    sAllConsuming mem (sMany0 mem (sComplete mem (sCut f)) (data.len + 1)) data

/-- `parse_*_tagged_explicit_g`, /repo/src/ber/tagged.rs:81-104, /repo/src/der/tagged.rs:82-106. -/
def sTaggedExplicitG (R : Rules) (tag : Nat) (mem : Bytes) (f : Slice → SHeader → SRes E O) :
    Slice → SRes E O :=
  sContainer R mem fun c hdr =>
    if hdr.cls = .universal then
      .err (.error (ParseErr.ofBer (.unexpectedClass none hdr.cls)))
    else
      liftResE ((hdr.read mem).assertTag tag) >>? fun _ =>
        liftResE (hdr.read mem).assertConstructed >>? fun _ => f c hdr

/-- `parse_*_tagged_implicit_g`, /repo/src/ber/tagged.rs:243-259, /repo/src/der/tagged.rs:245-261. -/
def sTaggedImplicitG (R : Rules) (tag : Nat) (mem : Bytes) (f : Slice → SHeader → Nat → SRes E O) :
    Slice → SRes E O :=
  sContainer R mem fun c hdr =>
    liftResE ((hdr.read mem).assertTag tag) >>? fun _ => f c hdr maxRecursion

end

/-- `BerObject::from_seq`, /repo/src/ber/ber.rs:146-148: a header without raw tag. -/
def SObject.fromSeq (l : List SObject) : SObject :=
  .mk (SHeader.new .universal true Tag.sequence (.definite 0)) (.sequence l)

/-- `BerObject::from_set`, /repo/src/ber/ber.rs:151-153. -/
def SObject.fromSet (l : List SObject) : SObject :=
  .mk (SHeader.new .universal true Tag.set (.definite 0)) (.set l)

/-- `BerObject::from_obj(BerObjectContent::Optional(None))`, /repo/src/ber/parser.rs:551. -/
def SObject.absent : SObject :=
  .mk (SHeader.new .universal false 0 (.definite 0)) .optionalNone

/-- `parse_ber_optional`, /repo/src/ber/parser.rs:538-555. -/
def sParseOptional (f : Slice → SRes BerError SObject) (s : Slice) : SRes BerError SObject :=
  match f s with
  | .ok r => .ok (r.1, .mk r.2.header (.optionalSome r.2))
  | .err _ => .ok (s, .absent)
  | .panic => .panic
  | .diverge => .diverge

/-- `parse_ber_with_tag` (/repo/src/ber/parser.rs:233-245), `parse_der_with_tag`
(/repo/src/der/parser.rs:70-82). -/
def sParseTyped (mem : Bytes) (D : Deps) (R : Rules) (tag : Nat) : Slice → SRes BerError SObject :=
  match R with
  | .ber => sParseBerWithTag mem D tag
  | .der => sParseDerWithTag mem D tag

/-- `parse_ber_content` (/repo/src/ber/parser.rs:178-184), `parse_der_content`
(/repo/src/der/parser.rs:436-442). -/
def sParseContent (mem : Bytes) (D : Deps) (R : Rules) (tag : Nat) (s : Slice) (hdr : SHeader)
    (maxDepth : Nat) : SRes BerError SContent :=
  match R with
  | .ber => sReadElementContentAs mem D s tag hdr.length hdr.constructed maxDepth
  | .der => sDerReadElementContentAs mem D s tag hdr.length hdr.constructed maxDepth

/-- `nom::branch::alt` of typed parsers, as `alt`. -/
def sAlt (p : Nat → Slice → SRes BerError SObject) (tag : Nat) (tags : List Nat) (s : Slice) :
    SRes BerError SObject :=
  match tags with
  | [] => p tag s
  | t :: ts =>
    match p tag s with
    | .err (.error _) => sAlt p t ts s
    | r => r

mutual
/-- The parser of a composition; the functions are cited at `Schema.run`. -/
def Schema.runAt (mem : Bytes) (D : Deps) (R : Rules) : Schema → Slice → SRes BerError SObject
  | .any, s => match R with
    | .ber => sParseBer mem D s
    | .der => sParseDer mem D s
  | .typed tag, s => sParseTyped mem D R tag s
  | .sequenceOf x, s =>
    sOfV R Tag.sequence mem (Schema.runAt mem D R x) s >>? fun r => .ok (r.1, .fromSeq r.2)
  | .setOf x, s =>
    sOfV R Tag.set mem (Schema.runAt mem D R x) s >>? fun r => .ok (r.1, .fromSet r.2)
  | .sequence l, s =>
    sDefinedG R Tag.sequence mem (fun c _ => Schema.runAllAt mem D R l c) s >>? fun r =>
      .ok (r.1, .fromSeq r.2)
  | .set l, s =>
    sDefinedG R Tag.set mem (fun c _ => Schema.runAllAt mem D R l c) s >>? fun r =>
      .ok (r.1, .fromSet r.2)
  | .explicit tag x, s =>
    sTaggedExplicitG R tag mem (fun c hdr =>
      Schema.runAt mem D R x c >>? fun r => .ok (r.1, .mk hdr (.tagged hdr.cls tag r.2))) s
  | .implicit tag type, s =>
    sTaggedImplicitG R tag mem (fun c hdr depth =>
      sParseContent mem D R type c hdr depth >>? fun r => .ok (r.1, .mk hdr r.2)) s
  | .optional x, s => sParseOptional (Schema.runAt mem D R x) s
  | .explicitOptional tag x, s =>
    sParseOptional (sTaggedExplicitG .ber tag mem fun c hdr =>
      Schema.runAt mem D R x c >>? fun r => .ok (r.1, .mk hdr (.tagged hdr.cls hdr.tag r.2))) s
  | .choice tag tags, s => sAlt (sParseTyped mem D R) tag tags s
/-- The closure for a list of components, /repo/src/ber/multi.rs:135-142. -/
def Schema.runAllAt (mem : Bytes) (D : Deps) (R : Rules) :
    List Schema → Slice → SRes BerError (List SObject)
  | [], s => .ok (s, [])
  | x :: l, s =>
    Schema.runAt mem D R x s >>? fun r =>
      Schema.runAllAt mem D R l r.1 >>? fun q => .ok (q.1, r.2 :: q.2)
end

end Verif
