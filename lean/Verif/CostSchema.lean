import Verif.Cost
import Verif.Schema
/-!
# Number of header reads of composed parsers

The combinators of `Verif/Multi.lean` and the composed parsers of `Verif/Schema.lean` again, counting the calls of
`Header::from_ber` and `Header::from_der` as in `Verif/Cost.lean`.  `Verif/Props/CostSchema.lean` shows that the results
are those of the uncounted functions.  The error type is `BerError`.
-/
namespace Verif
open Outcome

variable {α β : Type}

/-- A parser with the number of header reads it makes. -/
abbrev Ticker (α : Type) := Bytes → Tick (NomErr BerError) (Bytes × α)

/-- Header and content read by `parse_ber_container` (/repo/src/ber/multi.rs:520-526) and `parse_der_container`
(/repo/src/der/multi.rs:521-530): one header read, and those made to find the end of an indefinite length. -/
def frameT (R : Rules) (i : Bytes) : Tick (NomErr BerError) (Bytes × (Header × Bytes)) :=
  match R with
  | .ber =>
    (Tick.read (headerFromBer i)).bind fun r =>
      (match r.2.length with
       | .definite len => Tick.free (takeComplete len r.1)
       | .indefinite => getObjectContentT maxRecursion r.2 r.1).bind fun s =>
        .free (.ok (s.1, (r.2, s.2)))
  | .der =>
    (Tick.read (headerFromDer i)).bind fun r =>
      (match r.2.length with
       | .definite len => Tick.free (takeComplete len r.1)
       | .indefinite => Tick.free (.err (.error (BerError.derConstraintFailed .indefiniteLength)))).bind fun s =>
        .free (.ok (s.1, (r.2, s.2)))

/-- `parse_ber_container` (/repo/src/ber/multi.rs:514-530) and `parse_der_container`
(/repo/src/der/multi.rs:515-534). -/
def containerT (R : Rules) (f : Bytes → Header → Tick (NomErr BerError) (Bytes × α)) : Ticker α := fun i =>
  (frameT R i).bind fun s => (f s.2.2 s.2.1).bind fun v => .free (.ok (s.1, v.2))

/-- `parse_*_sequence_defined_g` / `parse_*_set_defined_g`: /repo/src/ber/multi.rs:220-232, 444-455;
/repo/src/der/multi.rs:221-233, 445-456. -/
def definedT (R : Rules) (tag : Nat) (f : Ticker α) : Ticker α :=
  containerT R fun i hdr => (Tick.free (liftRes (hdr.assertTag tag))).bind fun _ => f i

/-- `complete(cut(f))`, /repo/src/ber/multi.rs:75, 298; /repo/src/der/multi.rs:76, 299: no header reads of its own. -/
def completeCutT (f : Ticker α) : Ticker α := fun i => (complete (cut fun j => (f j).1) i, (f i).2)

/-- `nom::multi::many0`, with the fuel of `many0`; the reads of an item that is not read or not kept count too. -/
def many0T (p : Ticker α) : Nat → Bytes → Tick (NomErr BerError) (Bytes × List α)
  | 0, _ => .free .diverge
  | fuel + 1, i =>
    match (p i).1 with
    | .err (.error _) => (.ok (i, []), (p i).2)
    | .err e => (.err e, (p i).2)
    | .panic => (.panic, (p i).2)
    | .diverge => (.diverge, (p i).2)
    | .ok r =>
      if r.1.length = i.length then (.err (.error (.nomError .many0)), (p i).2)
      else
        let s := many0T p fuel r.1
        (s.1 >>? fun s => .ok (s.1, r.2 :: s.2), (p i).2 + s.2)

/-- `all_consuming(many0(complete(cut(f))))`, /repo/src/ber/multi.rs:75, 298; /repo/src/der/multi.rs:76, 299. -/
def ofSubparserT (f : Ticker α) : Ticker (List α) := fun data =>
  (many0T (completeCutT f) (data.length + 1) data).bind fun r =>
    .free (match r.1 with
      | [] => .ok r
      | _ :: _ => .err (.error (.nomError .eof)))

/-- `nom::combinator::map`. -/
def mapT (g : α → β) (p : Ticker α) : Ticker β := fun i => (p i).bind fun r => .free (.ok (r.1, g r.2))

/-- `parse_*_tagged_explicit_g` (/repo/src/ber/tagged.rs:81-104, /repo/src/der/tagged.rs:82-106) with the closure of
`parse_*_tagged_explicit` and of `parse_ber_explicit_optional`, which makes an object of header, tag and value. -/
def explicitT (R : Rules) (tag : Nat) (g : Header → BerObject → BerObject) (f : Ticker BerObject) : Ticker BerObject :=
  containerT R fun i hdr =>
    if hdr.cls = .universal then .free (.err (.error (.unexpectedClass none hdr.cls)))
    else
      (Tick.free (liftRes (hdr.assertTag tag))).bind fun _ =>
        (Tick.free (liftRes hdr.assertConstructed)).bind fun _ =>
          (f i).bind fun r => .free (.ok (r.1, g hdr r.2))

/-- `parse_*_tagged_implicit` with `parse_ber_content` or `parse_der_content`, /repo/src/ber/tagged.rs:170-182, 243-259;
/repo/src/der/tagged.rs:172-184, 245-261. -/
def implicitT (D : Deps) (R : Rules) (tag type : Nat) : Ticker BerObject :=
  containerT R fun i hdr =>
    (Tick.free (liftRes (hdr.assertTag tag))).bind fun _ =>
      (match R with
       | .ber => berReadElementContentAsT D i type hdr.length hdr.constructed maxRecursion
       | .der => derReadElementContentAsT D i type hdr.length hdr.constructed maxRecursion).bind fun r =>
        .free (.ok (r.1, .mk hdr r.2))

/-- `parse_ber_optional`, /repo/src/ber/parser.rs:538-555: the reads of the attempt count also if there is no value. -/
def optionalT (f : Ticker BerObject) : Ticker BerObject := fun i => (parseOptional (fun j => (f j).1) i, (f i).2)

/-- `nom::branch::alt`: the reads of all alternatives that were tried. -/
def altT (p : Nat → Ticker BerObject) (tag : Nat) (tags : List Nat) : Ticker BerObject := fun i =>
  match tags with
  | [] => p tag i
  | t :: ts =>
    match (p tag i).1 with
    | .err (.error _) => ((altT p t ts i).1, (p tag i).2 + (altT p t ts i).2)
    | r => (r, (p tag i).2)

mutual
/-- The composed parser of `Schema.run`, with the number of header reads.  The functions are those cited there. -/
def Schema.runT (D : Deps) (R : Rules) : Schema → Ticker BerObject
  | .any => match R with
    | .ber => parseBerRecursiveT D maxRecursion
    | .der => parseDerRecursiveT D maxRecursion
  | .typed tag => match R with
    | .ber => parseBerWithTagT D tag
    | .der => parseDerWithTagT D tag
  | .sequenceOf s => mapT BerObject.fromSeq (definedT R Tag.sequence (ofSubparserT (s.runT D R)))
  | .setOf s => mapT BerObject.fromSet (definedT R Tag.set (ofSubparserT (s.runT D R)))
  | .sequence l => mapT BerObject.fromSeq (definedT R Tag.sequence (Schema.runAllT D R l))
  | .set l => mapT BerObject.fromSet (definedT R Tag.set (Schema.runAllT D R l))
  | .explicit tag s => explicitT R tag (fun hdr o => .mk hdr (.tagged hdr.cls tag o)) (s.runT D R)
  | .implicit tag type => implicitT D R tag type
  | .optional s => optionalT (s.runT D R)
  | .explicitOptional tag s =>
    optionalT (explicitT .ber tag (fun hdr o => .mk hdr (.tagged hdr.cls hdr.tag o)) (s.runT D R))
  | .choice tag tags => match R with
    | .ber => altT (parseBerWithTagT D) tag tags
    | .der => altT (parseDerWithTagT D) tag tags
/-- The closure for a list of components, /repo/src/ber/multi.rs:135-142. -/
def Schema.runAllT (D : Deps) (R : Rules) : List Schema → Ticker (List BerObject)
  | [] => fun i => .free (.ok (i, []))
  | s :: l => fun i =>
    (s.runT D R i).bind fun r => (Schema.runAllT D R l r.1).bind fun q => .free (.ok (q.1, r.2 :: q.2))
end

end Verif
