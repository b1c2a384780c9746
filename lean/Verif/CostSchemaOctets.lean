import Verif.CostOctets
import Verif.CostSchema
/-!
# Number of octets looked at by composed parsers

The composed parsers of `Verif/Schema.lean` again, counting octets as in `Verif/CostOctets.lean`.  The combinators that read
nothing themselves (`many0`, `opt`, `alt`, `map`) are those of `Verif/CostSchema.lean`, which add up what the parsers in
them count.  The error type is `BerError`.
-/
namespace Verif
open Outcome

variable {α : Type}

/-- Header and content read by `parse_ber_container` (/repo/src/ber/multi.rs:520-526) and `parse_der_container`
(/repo/src/der/multi.rs:521-530): the octets of the header, and those looked at to find the end of an indefinite length. -/
def frameO (R : Rules) (i : Bytes) : Tick (NomErr BerError) (Bytes × (Header × Bytes)) :=
  match R with
  | .ber =>
    (lookHeader headerFromBer i).bind fun r =>
      (match r.2.length with
       | .definite len => Tick.free (takeComplete len r.1)
       | .indefinite => getObjectContentO maxRecursion r.2 r.1).bind fun s =>
        .free (.ok (s.1, (r.2, s.2)))
  | .der =>
    (lookHeader headerFromDer i).bind fun r =>
      (match r.2.length with
       | .definite len => Tick.free (takeComplete len r.1)
       | .indefinite => Tick.free (.err (.error (BerError.derConstraintFailed .indefiniteLength)))).bind fun s =>
        .free (.ok (s.1, (r.2, s.2)))

/-- `parse_ber_container` (/repo/src/ber/multi.rs:514-530) and `parse_der_container`
(/repo/src/der/multi.rs:515-534). -/
def containerO (R : Rules) (f : Bytes → Header → Tick (NomErr BerError) (Bytes × α)) : Ticker α := fun i =>
  (frameO R i).bind fun s => (f s.2.2 s.2.1).bind fun v => .free (.ok (s.1, v.2))

/-- `parse_*_sequence_defined_g` / `parse_*_set_defined_g`: /repo/src/ber/multi.rs:220-232, 444-455;
/repo/src/der/multi.rs:221-233, 445-456. -/
def definedO (R : Rules) (tag : Nat) (f : Ticker α) : Ticker α :=
  containerO R fun i hdr => (Tick.free (liftRes (hdr.assertTag tag))).bind fun _ => f i

/-- `parse_*_tagged_explicit_g` with a closure, as `explicitT`; /repo/src/ber/tagged.rs:81-104,
/repo/src/der/tagged.rs:82-106. -/
def explicitO (R : Rules) (tag : Nat) (g : Header → BerObject → BerObject) (f : Ticker BerObject) : Ticker BerObject :=
  containerO R fun i hdr =>
    if hdr.cls = .universal then .free (.err (.error (.unexpectedClass none hdr.cls)))
    else
      (Tick.free (liftRes (hdr.assertTag tag))).bind fun _ =>
        (Tick.free (liftRes hdr.assertConstructed)).bind fun _ =>
          (f i).bind fun r => .free (.ok (r.1, g hdr r.2))

/-- `parse_*_tagged_implicit` with `parse_ber_content` or `parse_der_content`, /repo/src/ber/tagged.rs:170-182, 243-259;
/repo/src/der/tagged.rs:172-184, 245-261. -/
def implicitO (D : Deps) (leaf : Any → Nat) (R : Rules) (tag type : Nat) : Ticker BerObject :=
  containerO R fun i hdr =>
    (Tick.free (liftRes (hdr.assertTag tag))).bind fun _ =>
      (match R with
       | .ber => berReadElementContentAsO D leaf i type hdr.length hdr.constructed maxRecursion
       | .der => derReadElementContentAsO D leaf i type hdr.length hdr.constructed maxRecursion).bind fun r =>
        .free (.ok (r.1, .mk hdr r.2))

mutual
/-- The composed parser of `Schema.run`, with the octets looked at.  The functions are those cited there. -/
def Schema.runO (D : Deps) (leaf : Any → Nat) (R : Rules) : Schema → Ticker BerObject
  | .any => match R with
    | .ber => parseBerRecursiveO D leaf maxRecursion
    | .der => parseDerRecursiveO D leaf maxRecursion
  | .typed tag => match R with
    | .ber => parseBerWithTagO D leaf tag
    | .der => parseDerWithTagO D leaf tag
  | .sequenceOf s => mapT BerObject.fromSeq (definedO R Tag.sequence (ofSubparserT (s.runO D leaf R)))
  | .setOf s => mapT BerObject.fromSet (definedO R Tag.set (ofSubparserT (s.runO D leaf R)))
  | .sequence l => mapT BerObject.fromSeq (definedO R Tag.sequence (Schema.runAllO D leaf R l))
  | .set l => mapT BerObject.fromSet (definedO R Tag.set (Schema.runAllO D leaf R l))
  | .explicit tag s => explicitO R tag (fun hdr o => .mk hdr (.tagged hdr.cls tag o)) (s.runO D leaf R)
  | .implicit tag type => implicitO D leaf R tag type
  | .optional s => optionalT (s.runO D leaf R)
  | .explicitOptional tag s =>
    optionalT (explicitO .ber tag (fun hdr o => .mk hdr (.tagged hdr.cls hdr.tag o)) (s.runO D leaf R))
  | .choice tag tags => match R with
    | .ber => altT (parseBerWithTagO D leaf) tag tags
    | .der => altT (parseDerWithTagO D leaf) tag tags
/-- The closure for a list of components, /repo/src/ber/multi.rs:135-142. -/
def Schema.runAllO (D : Deps) (leaf : Any → Nat) (R : Rules) : List Schema → Ticker (List BerObject)
  | [] => fun i => .free (.ok (i, []))
  | s :: l => fun i =>
    (s.runO D leaf R i).bind fun r => (Schema.runAllO D leaf R l r.1).bind fun q => .free (.ok (q.1, r.2 :: q.2))
end

end Verif
