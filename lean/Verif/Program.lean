import Verif.Schema
import Verif.Methods
/-!
# The programs of the documentation and of the tests

Functions written by a user of the library: the examples in the documentation comments of /repo/src and the structures
of /repo/tests/constructed.rs.  Their closures give back values of the user's own types.
-/
namespace Verif
open Outcome

/-- `nom::combinator::map_res` with `BerError`: an error of the function becomes `NomError(MapRes)`
(`FromExternalError` of asn1-rs drops the error itself).  Used in /repo/src/ber/tagged.rs:19-26, 148-158 and
/repo/tests/constructed.rs:256. -/
def mapResult {α β : Type} (g : α → Res β) (p : Bytes → IRes BerError α) (i : Bytes) : IRes BerError β :=
  p i >>? fun r =>
    match g r.2 with
    | .ok v => .ok (r.1, v)
    | .err _ => .err (.error (.nomError .mapRes))
    | .panic => .panic
    | .diverge => .diverge

/-- `nom::combinator::eof`, used in /repo/tests/constructed.rs:37, 50. -/
def eof (i : Bytes) : IRes BerError Unit :=
  match i with
  | [] => .ok ([], ())
  | _ :: _ => .err (.error (.nomError .eof))

/-- `parse_ber_u32` (/repo/src/ber/parser.rs:580-582) or `parse_der_u32` (/repo/src/der/parser.rs:389-391). -/
def parseU32 (R : Rules) : Bytes → IRes BerError Nat :=
  match R with
  | .ber => parseBerUint 4
  | .der => parseDerUint 4

/-- `parse_ber_xxx` or `parse_der_xxx` for the type with this tag number, /repo/src/ber/parser.rs:249-443,
/repo/src/der/parser.rs:86-299. -/
def parseTyped (D : Deps) (R : Rules) (tag : Nat) : Bytes → IRes BerError BerObject :=
  match R with
  | .ber => parseBerWithTag D tag
  | .der => parseDerWithTag D tag

/-- `parse_ber_content` (/repo/src/ber/parser.rs:178-184) or `parse_der_content` (/repo/src/der/parser.rs:436-442); also
`parse_*_content2`. -/
def parseContentOf (D : Deps) (R : Rules) (tag : Nat) : Bytes → Header → Nat → IRes BerError Content :=
  match R with
  | .ber => parseBerContent D tag
  | .der => parseDerContent D tag

/-- The closure of `parse_myobject`, /repo/src/ber/multi.rs:199-204, 423-428, 494-497; /repo/src/der/multi.rs:200-205,
424-429, 495-498.  `unwrap()` of an error is a panic. -/
def myObjectFields (D : Deps) (R : Rules) (i : Bytes) : IRes BerError (Nat × Bytes) :=
  parseU32 R i >>? fun r =>
    parseTyped D R Tag.octetString r.1 >>? fun s =>
      match s.2.asSlice with
      | .ok b => .ok (s.1, (r.2, b))
      | .err _ => .panic
      | .panic => .panic
      | .diverge => .diverge

/-- `parse_myobject` with `parse_*_sequence_defined_g` (`tag` = SEQUENCE) or `parse_*_set_defined_g` (`tag` = SET),
/repo/src/ber/multi.rs:197-206, 421-430; /repo/src/der/multi.rs:198-207, 422-431. -/
def parseMyObject (D : Deps) (R : Rules) (tag : Nat) : Bytes → IRes BerError (Nat × Bytes) :=
  definedG R tag fun i _ => myObjectFields D R i

/-- `parse_myobject` with `parse_*_container`, /repo/src/ber/multi.rs:488-500; /repo/src/der/multi.rs:489-501. -/
def parseMyObjectContainer (D : Deps) (R : Rules) : Bytes → IRes BerError (Nat × Bytes) :=
  container R fun i hdr =>
    if hdr.tag ≠ Tag.sequence then .err (.error .berTypeError) else myObjectFields D R i

/-- `parse_int_explicit` with `parse_*_tagged_explicit` and `map_res`, /repo/src/ber/tagged.rs:21-26;
/repo/src/der/tagged.rs:22-27. -/
def parseIntExplicit (D : Deps) (R : Rules) : Bytes → IRes BerError Nat :=
  mapResult (fun x => x.asTagged >>? fun t => t.2.2.asU32) (taggedExplicit R 2 (parseTyped D R Tag.integer))

/-- `parse_int_explicit` with `parse_*_tagged_explicit_g`, /repo/src/ber/tagged.rs:63-69;
/repo/src/der/tagged.rs:64-70. -/
def parseIntExplicitG (D : Deps) (R : Rules) : Bytes → IRes BerError Nat :=
  taggedExplicitG R 2 fun content _ =>
    parseTyped D R Tag.integer content >>? fun r => liftRes r.2.asU32 >>? fun v => .ok (r.1, v)

/-- `parse_int_implicit` with `parse_*_tagged_implicit` and `map_res`, /repo/src/ber/tagged.rs:150-158;
/repo/src/der/tagged.rs:152-160. -/
def parseIntImplicit (D : Deps) (R : Rules) : Bytes → IRes BerError Nat :=
  mapResult (fun x => x.asU32) (taggedImplicit R 2 (parseContentOf D R Tag.integer))

/-- `parse_int_implicit` with `parse_*_tagged_implicit_g`, /repo/src/ber/tagged.rs:222-231;
/repo/src/der/tagged.rs:224-233. -/
def parseIntImplicitG (D : Deps) (R : Rules) : Bytes → IRes BerError Nat :=
  taggedImplicitG R 2 fun content hdr depth =>
    parseContentOf D R Tag.integer content hdr depth >>? fun r => liftRes r.2.asU32 >>? fun v => .ok (r.1, v)

/-- `parse_implicit_0_octetstring`, /repo/src/ber/tagged.rs:196-201; /repo/src/der/tagged.rs:198-203. -/
def parseImplicitOctets (D : Deps) (R : Rules) : Bytes → IRes BerError Content :=
  taggedImplicitG R 2 (parseContentOf D R Tag.octetString)

/-- The two fields of `MyStruct`, /repo/tests/constructed.rs:27-29. -/
def structFields (D : Deps) (i : Bytes) : IRes BerError (BerObject × BerObject) :=
  parseBerWithTag D Tag.integer i >>? fun r =>
    parseBerWithTag D Tag.integer r.1 >>? fun s => .ok (s.1, (r.2, s.2))

/-- `parse_struct01`, /repo/tests/constructed.rs:25-31. -/
def parseStruct01 (D : Deps) : Bytes → IRes BerError (BerObject × BerObject) :=
  definedG .der Tag.sequence fun i _ => structFields D i

/-- The fields and then the end, /repo/tests/constructed.rs:35-38, 48-51. -/
def structFieldsEof (D : Deps) (i : Bytes) : IRes BerError (BerObject × BerObject) :=
  structFields D i >>? fun s => eof s.1 >>? fun _ => .ok s

/-- `parse_struct01_complete`, /repo/tests/constructed.rs:33-40. -/
def parseStruct01Complete (D : Deps) : Bytes → IRes BerError (BerObject × BerObject) :=
  definedG .der Tag.sequence fun i _ => structFieldsEof D i

/-- `parse_struct04`, /repo/tests/constructed.rs:43-53. -/
def parseStruct04 (D : Deps) (tag : Nat) : Bytes → IRes BerError (BerObject × BerObject) :=
  container .der fun i hdr =>
    if hdr.tag ≠ tag then .err (.error .invalidTag) else structFieldsEof D i

/-- `parse_directory_string`, /repo/tests/constructed.rs:244-250. -/
def parseDirectoryString (D : Deps) : Bytes → IRes BerError BerObject :=
  alt (parseBerWithTag D) Tag.utf8String [Tag.printableString, Tag.ia5String]

/-- `parse_attr_type_and_value`, /repo/tests/constructed.rs:251-260.  The object identifier is its contents octets. -/
def parseAttr (D : Deps) : Bytes → IRes BerError (Bytes × BerObject) :=
  definedG .der Tag.sequence fun i _ =>
    mapResult (fun x => x.asOid) (parseBerWithTag D Tag.oid) i >>? fun r =>
      parseDirectoryString D r.1 >>? fun s => .ok (s.1, (r.2, s.2))

/-- `parse_rdn`, /repo/tests/constructed.rs:261-266. -/
def parseRdn (D : Deps) : Bytes → IRes BerError (Bytes × BerObject) :=
  definedG .der Tag.set fun i _ => parseAttr D i

/-- `parse_name`, /repo/tests/constructed.rs:267-272. -/
def parseName (D : Deps) : Bytes → IRes BerError (List (Bytes × BerObject)) :=
  definedG .der Tag.sequence fun i _ => many0 (complete (parseRdn D)) (i.length + 1) i

end Verif
