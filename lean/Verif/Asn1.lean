import Verif.Nom
/-!
# Model of the parts of `asn1-rs` 0.7 used by der-parser

The crate source is not available in the sandbox: these definitions follow its documented
behaviour and are cross-checked against the expectations in the tests of /repo (replayed in
`Verif/Tests.lean`).  They are part of the trusted base (DESIGN.md section 2).
-/
namespace Verif
open Outcome

/-- `asn1_rs::Class` (re-exported at /repo/src/lib.rs). -/
inductive Class where
  | universal | application | contextSpecific | priv
deriving DecidableEq, Repr

/-- `asn1_rs::Length`. -/
inductive Length where
  | definite (n : Nat)
  | indefinite
deriving DecidableEq, Repr

/-- `asn1_rs::DerConstraint` (variants used here). -/
inductive DerConstraint where
  | indefiniteLength | constructed | invalidBoolean | integerEmpty | integerLeadingZeroes
  | integerLeadingFF | unusedBitsNotZero | missingTimeZone | missingSeconds
deriving DecidableEq, Repr

/-- `asn1_rs::Error`, aliased `BerError` in /repo/src/error.rs.  Message strings are dropped. -/
inductive BerError where
  | berTypeError | berValueError | invalidLength
  | invalidValue (tag : Nat)
  | invalidTag
  | unknownTag (tag : Nat)
  | unexpectedTag (expected : Option Nat) (actual : Nat)
  | unexpectedClass (expected : Option Class) (actual : Class)
  | indefiniteLengthUnexpected
  | constructExpected | constructUnexpected
  | integerTooLarge | integerNegative
  | berMaxDepth
  | stringInvalidCharset
  | invalidDateTime
  | derConstraintFailed (c : DerConstraint)
  | unsupported
  | incomplete (n : Needed)
  | nomError (k : ErrorKind)
deriving DecidableEq, Repr

/-- `asn1_rs::Result<α>` = `Result<α, Error>`. -/
abbrev Res (α : Type) := Outcome BerError α

/-- Error types accepted by the generic combinators:
`E: ParseError<&[u8]> + From<BerError>` (e.g. /repo/src/ber/multi.rs:514-518). -/
class ParseErr (E : Type) where
  ofBer : BerError → E
  ofKind : Bytes → ErrorKind → E

/-- `impl ParseError<&[u8]> for Error`: `from_error_kind(_, kind) = Error::NomError(kind)`. -/
instance : ParseErr BerError where
  ofBer := id
  ofKind _ k := .nomError k

/-- The `?` operator from `Result<_, Error>` into a nom result:
`impl From<Error> for nom::Err<Error>` gives `Err::Error(e)`. -/
def liftRes {α : Type} (r : Res α) : Outcome (NomErr BerError) α := r.mapErr .error

/-- `impl From<nom::Err<Error>> for Error`, used when `?` is applied to a nom result inside a
function returning `Result` (e.g. /repo/src/ber/wrap_any.rs:80). -/
def errOfNom : NomErr BerError → BerError
  | .incomplete n => .incomplete n
  | .error e => e
  | .failure e => e

/-- `asn1_rs::Header`. -/
structure Header where
  cls : Class
  constructed : Bool
  tag : Nat
  length : Length
  rawTag : Option Bytes
deriving DecidableEq, Repr

/-- `Header::new(class, constructed, tag, length)`: no raw tag. -/
def Header.new (cls : Class) (constructed : Bool) (tag : Nat) (length : Length) : Header :=
  { cls, constructed, tag, length, rawTag := none }

/-- `asn1_rs::Any`: header and content bytes. -/
structure Any where
  header : Header
  data : Bytes
deriving DecidableEq, Repr

/-! ## Universal tag numbers (`asn1_rs::Tag` constants) -/
namespace Tag
def endOfContent : Nat := 0
def boolean : Nat := 1
def integer : Nat := 2
def bitString : Nat := 3
def octetString : Nat := 4
def null : Nat := 5
def oid : Nat := 6
def objectDescriptor : Nat := 7
def enumerated : Nat := 10
def utf8String : Nat := 12
def relativeOid : Nat := 13
def sequence : Nat := 16
def set : Nat := 17
def numericString : Nat := 18
def printableString : Nat := 19
def teletexString : Nat := 20
def videotexString : Nat := 21
def ia5String : Nat := 22
def utcTime : Nat := 23
def generalizedTime : Nat := 24
def graphicString : Nat := 25
def visibleString : Nat := 26
def generalString : Nat := 27
def universalString : Nat := 28
def bmpString : Nat := 30
end Tag

/-! ## Header decoding -/

/-- Class from the two top bits of the first identifier octet. -/
def classOfBits (n : Nat) : Class :=
  match n with
  | 0 => .universal
  | 1 => .application
  | 2 => .contextSpecific
  | _ => .priv

/-- Loop over the subsequent octets of a high tag number in `asn1_rs::parse_identifier`:
`count` octets were already used; running out of octets or more than five subsequent octets
gives `Error(InvalidTag)`; the tag accumulates in a `u32` as `(c << 7) | (b & 0x7f)`. -/
def tagLoop : Bytes → Nat → Nat → Outcome (NomErr BerError) (Nat × Nat)
  | [], _, _ => .err (.error .invalidTag)
  | b :: rest, count, c =>
    if count > 5 then .err (.error .invalidTag)
    else
      let c' := (c * 128) % 4294967296 + b.toNat % 128
      if b.toNat < 128 then .ok (c', count + 1) else tagLoop rest (count + 1) c'

/-- Identifier octets as decoded by `asn1_rs::parse_identifier`. -/
structure Ident where
  cls : Class
  constructed : Bool
  tag : Nat
  raw : Bytes
deriving DecidableEq, Repr

/-- `asn1_rs::parse_identifier`. -/
def parseIdentifier (i : Bytes) : IRes BerError Ident :=
  match i with
  | [] => .err (.incomplete (Needed.new 1))
  | b :: rest =>
    let cls := classOfBits (b.toNat / 64)
    let constructed := decide (b.toNat / 32 % 2 = 1)
    let c := b.toNat % 32
    if c = 31 then
      tagLoop rest 1 0 >>? fun r =>
        .ok (i.drop r.2, { cls, constructed, tag := r.1, raw := i.take r.2 })
    else .ok (rest, { cls, constructed, tag := c, raw := [b] })

/-- `asn1_rs::bytes_to_u64`: big-endian, failing (`IntegerTooLarge`) when a shift would lose
bits (`u & 0xff00_0000_0000_0000 != 0`, i.e. `u ≥ 2^56`). -/
def bytesToU64 (u : Nat) : Bytes → Option Nat
  | [] => some u
  | b :: bs => if 72057594037927936 ≤ u then none else bytesToU64 (u * 256 + b.toNat) bs

/-- Length octets, shared by `Header::from_ber` and `Header::from_der`; `onIndef` is the
treatment of the octet `80`.  `ff` and lengths not fitting 64 bits give `InvalidLength`. -/
def parseLength (onIndef : Outcome (NomErr BerError) Length) (i : Bytes) :
    IRes BerError Length :=
  match i with
  | [] => .err (.incomplete (Needed.new 1))
  | b :: rest =>
    let l := b.toNat % 128
    if b.toNat < 128 then .ok (rest, .definite l)
    else if l = 0 then onIndef.map fun len => (rest, len)
    else if l = 127 then .err (.error .invalidLength)
    else
      takeStreaming l rest >>? fun r =>
        match bytesToU64 0 r.2 with
        | none => .err (.error .invalidLength)
        | some n => .ok (r.1, .definite n)

/-- `Header::from_ber`, called by /repo/src/ber/parser.rs:116-118. -/
def headerFromBer (i : Bytes) : IRes BerError Header :=
  parseIdentifier i >>? fun r =>
    parseLength
      (if r.2.constructed then .ok .indefinite else .err (.error .constructExpected)) r.1
    >>? fun s =>
      .ok (s.1, { cls := r.2.cls, constructed := r.2.constructed, tag := r.2.tag,
                  length := s.2, rawTag := some r.2.raw })

/-- `Header::from_der`, called by /repo/src/der/parser.rs:630-632.  Only the indefinite form is
refused; non-minimal definite lengths are accepted (see the comment in
/repo/tests/der_parser.rs, "the parser is laxist here"). -/
def headerFromDer (i : Bytes) : IRes BerError Header :=
  parseIdentifier i >>? fun r =>
    parseLength (.err (.error (.derConstraintFailed .indefiniteLength))) r.1
    >>? fun s =>
      .ok (s.1, { cls := r.2.cls, constructed := r.2.constructed, tag := r.2.tag,
                  length := s.2, rawTag := some r.2.raw })

/-- `Header::assert_tag`. -/
def Header.assertTag (h : Header) (tag : Nat) : Res Unit :=
  if h.tag = tag then .ok () else .err (.unexpectedTag (some tag) h.tag)

/-- `Header::assert_constructed`. -/
def Header.assertConstructed (h : Header) : Res Unit :=
  if h.constructed then .ok () else .err .constructExpected

/-- `Header::assert_primitive`. -/
def Header.assertPrimitive (h : Header) : Res Unit :=
  if h.constructed then .err .constructUnexpected else .ok ()

/-- `Length::definite`. -/
def Length.definite? : Length → Res Nat
  | .definite n => .ok n
  | .indefinite => .err .indefiniteLengthUnexpected

/-! ## `Any` -/

/-- `Any::bool`: the *header* length must be `Definite(1)`, then `data[0]` is indexed. -/
def Any.bool (a : Any) : Res Bool :=
  if a.header.length = .definite 1 then
    match a.data with
    | [] => .panic
    | b :: _ => .ok (b.toNat != 0)
  else .err .invalidLength

/-- `Any::enumerated`: primitive, unsigned big-endian, at most `u32::MAX`. -/
def Any.enumerated (a : Any) : Res Nat :=
  a.header.assertPrimitive >>? fun _ =>
    match bytesToU64 0 a.data with
    | none => .err .integerTooLarge
    | some n => if 4294967295 < n then .err .integerTooLarge else .ok n

/-! ## Character sets -/

/-- Kinds of character strings represented as `&str` in `BerObjectContent`
(/repo/src/ber/ber.rs:55-82). -/
inductive StrKind where
  | numeric | visible | printable | ia5 | utf8 | t61 | videotex | objectDescriptor
  | graphic | general
deriving DecidableEq, Repr

/-- Well-formed UTF-8 (`core::str::from_utf8`), table of RFC 3629 section 4: no overlong forms,
no surrogates, at most U+10FFFF. -/
def validUtf8 : Bytes → Bool
  | [] => true
  | a :: rest =>
    if a < 0x80 then validUtf8 rest
    else if a < 0xC2 then false
    else if a < 0xE0 then
      match rest with
      | b :: rest' => 0x80 ≤ b && b < 0xC0 && validUtf8 rest'
      | _ => false
    else if a < 0xF0 then
      match rest with
      | b :: c :: rest' =>
        0x80 ≤ b && b < 0xC0 && 0x80 ≤ c && c < 0xC0 &&
        (a != 0xE0 || 0xA0 ≤ b) && (a != 0xED || b < 0xA0) && validUtf8 rest'
      | _ => false
    else if a < 0xF5 then
      match rest with
      | b :: c :: d :: rest' =>
        0x80 ≤ b && b < 0xC0 && 0x80 ≤ c && c < 0xC0 && 0x80 ≤ d && d < 0xC0 &&
        (a != 0xF0 || 0x90 ≤ b) && (a != 0xF4 || b < 0x90) && validUtf8 rest'
      | _ => false
    else false

/-- `char::is_ascii_alphanumeric` on a byte. -/
def isAlnum (b : UInt8) : Bool :=
  (0x30 ≤ b && b ≤ 0x39) || (0x41 ≤ b && b ≤ 0x5a) || (0x61 ≤ b && b ≤ 0x7a)

/-- Alphabet of PrintableString in asn1-rs: letters, digits, space and `'()+,-./:=?`. -/
def isPrintableByte (b : UInt8) : Bool :=
  isAlnum b || b = 0x20 || b = 0x27 || b = 0x28 || b = 0x29 || b = 0x2b || b = 0x2c ||
  b = 0x2d || b = 0x2e || b = 0x2f || b = 0x3a || b = 0x3d || b = 0x3f

/-- Alphabet of NumericString: digits and space. -/
def isNumericByte (b : UInt8) : Bool := b = 0x20 || (0x30 ≤ b && b ≤ 0x39)

/-- Alphabet of VisibleString in asn1-rs: `0x20..=0x7f`. -/
def isVisibleByte (b : UInt8) : Bool := 0x20 ≤ b && b ≤ 0x7f

/-- ASCII (IA5String). -/
def isAsciiByte (b : UInt8) : Bool := b < 0x80

/-- `asn1_rs::ASN1DateTime`, as stored in `BerObjectContent::{UTCTime, GeneralizedTime}`.
The fields are kept abstract: a date is identified with a list of numbers. -/
structure DateTime where
  fields : List Int
deriving DecidableEq, Repr

/-- External behaviour about which nothing is assumed: asn1-rs time parsing/printing and the
alphabets of the rarely used string types.  All theorems quantify over `D : Deps`. -/
structure Deps where
  /-- `Any::utctime` (/repo/src/ber/wrap_any.rs:169), as a function of the constructed flag and the
  content bytes: the tag is the one of the type and no other part of the header is looked at. -/
  utcTime : Bool → Bytes → Except BerError DateTime
  /-- `Any::generalizedtime`, likewise. -/
  generalizedTime : Bool → Bytes → Except BerError DateTime
  /-- `Display for ASN1DateTime`, used by /repo/src/ber/serialize.rs:63-68. -/
  display : DateTime → Bytes
  /-- `test_valid_charset` of TeletexString, VideotexString, ObjectDescriptor, GraphicString,
  GeneralString. -/
  charset : StrKind → Bytes → Bool

/-- `<$ty>::test_valid_charset`, /repo/src/ber/wrap_any.rs:46. -/
def validCharset (D : Deps) (k : StrKind) (bs : Bytes) : Bool :=
  match k with
  | .numeric => bs.all isNumericByte
  | .visible => bs.all isVisibleByte
  | .printable => bs.all isPrintableByte
  | .ia5 => bs.all isAsciiByte
  | .utf8 => validUtf8 bs
  | k => D.charset k bs

/-- `Except` (a call that cannot panic) as an outcome. -/
def liftExcept {ε α : Type} : Except ε α → Outcome ε α
  | .ok a => .ok a
  | .error e => .err e

/-- `String::from_utf16` succeeds: every high surrogate is followed by a low one and no low
surrogate is isolated.  Used by /repo/src/ber/wrap_any.rs:104-109. -/
def validUtf16 : List Nat → Bool
  | [] => true
  | u :: rest =>
    if u < 0xD800 || 0xDFFF < u then validUtf16 rest
    else if 0xDC00 ≤ u then false
    else match rest with
      | v :: rest' => decide (0xDC00 ≤ v) && decide (v ≤ 0xDFFF) && validUtf16 rest'
      | [] => false

/-- `chunks_exact(2)` then `u16::from_be_bytes`, /repo/src/ber/wrap_any.rs:104-108. -/
def utf16Units : Bytes → List Nat
  | a :: b :: rest => (a.toNat * 256 + b.toNat) :: utf16Units rest
  | _ => []

end Verif
