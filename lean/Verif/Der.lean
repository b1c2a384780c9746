import Verif.Ber
/-!
# DER parsing: model of /repo/src/der/parser.rs
-/
namespace Verif
open Outcome

/-- The loop of /repo/src/der/parser.rs:598-602: the low `ignored` bits of the last byte are
tested one by one. -/
def unusedBitsZero : Nat → Nat → Bool
  | 0, _ => true
  | n + 1, last => if last % 2 ≠ 0 then false else unusedBitsZero n (last / 2)

/-- `der_read_content_bitstring`, /repo/src/der/parser.rs:585-607.  `be_u8` is the streaming
version (`Incomplete(1)` on empty input) and is run *before* `len` is looked at;
`data[len - 2]` (L598) is an index expression. -/
def derReadContentBitstring (i : Bytes) (len : Nat) : IRes BerError Content :=
  match i with
  | [] => .err (.incomplete (Needed.new 1))
  | ignored :: i =>
    if 7 < ignored.toNat then .err (.error (.invalidValue Tag.bitString))
    else if len = 0 then .err (.error .invalidLength)
    else
      takeStreaming (len - 1) i >>? fun r =>
        if 1 < len then
          match r.2[len - 2]? with
          | none => .panic
          | some last =>
            if unusedBitsZero ignored.toNat last.toNat then .ok (r.1, .bitString ignored r.2)
            else .err (.error (.derConstraintFailed .unusedBitsNotZero))
        else .ok (r.1, .bitString ignored r.2)

/-- Integer checks of /repo/src/der/parser.rs:505-522 on `i[..l]`. -/
def derIntegerCheck : Bytes → Res Unit
  | [] => .err (.derConstraintFailed .integerEmpty)
  | a :: b :: _ =>
    if a = 0 ∧ b.toNat < 128 then .err (.derConstraintFailed .integerLeadingZeroes) else .ok ()
  | [_] => .ok ()

/-- What `der_read_element_content_as` checks for a tag before delegating to BER
(/repo/src/der/parser.rs:493-546; `BitString` is handled apart). -/
def derCheck (i : Bytes) (tag l : Nat) (constructed : Bool) : Res Unit :=
  match uKind tag with
  | .boolean =>
    if l ≠ 1 then .err .invalidLength
    else
      match i with
      | [] => .panic
      | b :: _ =>
        if b ≠ 0 ∧ b ≠ 0xff then .err (.derConstraintFailed .invalidBoolean) else .ok ()
  | .integer => if i.length < l then .panic else derIntegerCheck (i.take l)
  | .str _ => if constructed then .err (.derConstraintFailed .constructed) else .ok ()
  | .bmpString => if constructed then .err (.derConstraintFailed .constructed) else .ok ()
  | .universalString => if constructed then .err (.derConstraintFailed .constructed) else .ok ()
  | .utcTime =>
    if l = 0 ∨ i[l - 1]? ≠ some 0x5a then .err (.derConstraintFailed .missingTimeZone) else .ok ()
  | .generalizedTime =>
    if l = 0 ∨ i[l - 1]? ≠ some 0x5a then .err (.derConstraintFailed .missingTimeZone) else .ok ()
  | _ => .ok ()

/-- `der_read_element_content_as`, /repo/src/der/parser.rs:481-548. -/
def derReadElementContentAs (D : Deps) (i : Bytes) (tag : Nat) (length : Length)
    (constructed : Bool) (maxDepth : Nat) : IRes BerError Content :=
  liftRes length.definite? >>? fun l =>
    if i.length < l then .err (.incomplete (Needed.new l))
    else if tag = Tag.bitString then
      if constructed then .err (.error (.derConstraintFailed .constructed))
      else derReadContentBitstring i l
    else
      liftRes (derCheck i tag l constructed) >>? fun _ =>
        berReadElementContentAs D i tag length constructed maxDepth

/-- `parse_der_content` / `parse_der_content2`, /repo/src/der/parser.rs:436-442, 468-474. -/
def parseDerContent (D : Deps) (tag : Nat) (i : Bytes) (hdr : Header) (maxDepth : Nat) :
    IRes BerError Content :=
  derReadElementContentAs D i tag hdr.length hdr.constructed maxDepth

/-- The `Unknown` object built from raw content, /repo/src/der/parser.rs:565-569 and 575-579. -/
def derUnknown (i : Bytes) (hdr : Header) (maxDepth : Nat) : IRes BerError BerObject :=
  getObjectContent maxDepth hdr i >>? fun r =>
    .ok (r.1, .mk hdr (.unknown { header := hdr, data := r.2 }))

/-- `der_read_element_content_recursive`, /repo/src/der/parser.rs:557-583. -/
def derReadElementContentRecursive (D : Deps) (i : Bytes) (hdr : Header) (maxDepth : Nat) :
    IRes BerError BerObject :=
  if hdr.cls ≠ .universal then derUnknown i hdr maxDepth
  else
    match derReadElementContentAs D i hdr.tag hdr.length hdr.constructed maxDepth with
    | .ok r => .ok (r.1, .mk hdr r.2)
    | .err (.error (.unknownTag _)) => derUnknown i hdr maxDepth
    | .err e => .err e
    | .panic => .panic
    | .diverge => .diverge

/-- `der_read_element_content`, /repo/src/der/parser.rs:553-555. -/
def derReadElementContent (D : Deps) (i : Bytes) (hdr : Header) : IRes BerError BerObject :=
  derReadElementContentRecursive D i hdr maxRecursion

/-- `parse_der_recursive`, /repo/src/der/parser.rs:47-54. -/
def parseDerRecursive (D : Deps) (maxDepth : Nat) (i : Bytes) : IRes BerError BerObject :=
  headerFromDer i >>? fun r =>
    match r.2.length with
    | .definite l =>
      if maxObjectSize < l then .err (.error .invalidLength)
      else derReadElementContentRecursive D r.1 r.2 maxDepth
    | .indefinite => derReadElementContentRecursive D r.1 r.2 maxDepth

/-- `parse_der`, /repo/src/der/parser.rs:29-31. -/
def parseDer (D : Deps) (i : Bytes) : IRes BerError BerObject := parseDerRecursive D maxRecursion i

/-- `parse_der_with_tag`, /repo/src/der/parser.rs:70-82.  All `parse_der_xxx` of
/repo/src/der/parser.rs:86-299 are instances. -/
def parseDerWithTag (D : Deps) (tag : Nat) (i : Bytes) : IRes BerError BerObject :=
  headerFromDer i >>? fun r =>
    liftRes (r.2.assertTag tag) >>? fun _ =>
      derReadElementContentAs D r.1 r.2.tag r.2.length r.2.constructed maxRecursion >>? fun s =>
        .ok (s.1, .mk r.2 s.2)

/-- `Any::from_der` (asn1-rs): definite length only, streaming `take`. -/
def anyFromDer (i : Bytes) : IRes BerError Any :=
  headerFromDer i >>? fun r =>
    liftRes r.2.length.definite? >>? fun l =>
      takeStreaming l r.1 >>? fun s => .ok (s.1, { header := r.2, data := s.2 })

/-- Byte pattern part of `check_der_int_constraints` (asn1-rs). -/
def derIntConstraints : Bytes → Res Unit
  | [] => .err (.derConstraintFailed .integerEmpty)
  | a :: b :: _ =>
    if a = 0 ∧ b.toNat < 128 then .err (.derConstraintFailed .integerLeadingZeroes)
    else if a = 0xff ∧ 128 ≤ b.toNat then .err (.derConstraintFailed .integerLeadingFF)
    else .ok ()
  | [_] => .ok ()

/-- `parse_der_u32` / `parse_der_u64` (`n` = 4 / 8), /repo/src/der/parser.rs:389-399:
`<uN>::from_der`, i.e. `Any::from_der`, `check_der_int_constraints`, `TryFrom`. -/
def parseDerUint (n : Nat) (i : Bytes) : IRes BerError Nat :=
  anyFromDer i >>? fun r =>
    liftRes r.2.header.assertPrimitive >>? fun _ =>
      liftRes (derIntConstraints r.2.data) >>? fun _ =>
        liftRes (uintFromAny n r.2) >>? fun v => .ok (r.1, v)

/-- `parse_der_i32` / `parse_der_i64` (`n` = 4 / 8), /repo/src/der/parser.rs:372-383. -/
def parseDerInt (n : Nat) (i : Bytes) : IRes BerError Int :=
  anyFromDer i >>? fun r =>
    liftRes r.2.header.assertPrimitive >>? fun _ =>
      liftRes (derIntConstraints r.2.data) >>? fun _ =>
        liftRes (intFromAny n r.2) >>? fun v => .ok (r.1, v)

end Verif
