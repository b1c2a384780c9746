import Verif.Object
/-!
# BER parsing: model of /repo/src/ber/parser.rs and /repo/src/ber/wrap_any.rs
-/
namespace Verif
open Outcome

/-- `MAX_RECURSION`, /repo/src/ber/parser.rs:8. -/
def maxRecursion : Nat := 50
/-- `MAX_OBJECT_SIZE`, /repo/src/ber/parser.rs:11. -/
def maxObjectSize : Nat := 4294967295

/-- Loop of the indefinite-length branch, /repo/src/ber/parser.rs:36-45.  `skip` is the
recursive call with `max_depth - 1`.  Each iteration consumes at least two bytes, so
`i.length + 1` iterations are enough; running out of fuel is `diverge` (excluded by C01). -/
def skipLoop (skip : Header → Bytes → IRes BerError Bool) : Nat → Bytes → IRes BerError Bool
  | 0, _ => .diverge
  | fuel + 1, i =>
    headerFromBer i >>? fun r2 =>
      skip r2.2 r2.1 >>? fun r3 =>
        if r3.2 then .ok (r3.1, false) else skipLoop skip fuel r3.1

/-- `ber_skip_object_content`, /repo/src/ber/parser.rs:14-48. -/
def skipContent : Nat → Header → Bytes → IRes BerError Bool
  | 0, _, _ => .err (.error .berMaxDepth)
  | depth + 1, hdr, i =>
    match hdr.length with
    | .definite l =>
      if l = 0 ∧ hdr.tag = Tag.endOfContent then .ok (i, true)
      else takeStreaming l i >>? fun r => .ok (r.1, false)
    | .indefinite =>
      if hdr.constructed then skipLoop (skipContent depth) (i.length + 1) i
      else .err (.error .constructExpected)

/-- `ber_get_object_content`, /repo/src/ber/parser.rs:51-68 (and the same algorithm in asn1-rs,
used by `Any::from_ber`).  `start_i.offset(i)` is the difference of lengths; `split_at` is
`take`/`drop`; the `assert!` of L63 is explicit. -/
def getObjectContent (depth : Nat) (hdr : Header) (i : Bytes) : IRes BerError Bytes :=
  skipContent depth hdr i >>? fun r =>
    let len := i.length - r.1.length
    let content := i.take len
    let rest := i.drop len
    if hdr.length = .indefinite then
      if content.length < 2 then .panic
      else .ok (rest, content.take (content.length - 2))
    else .ok (rest, content)

/-- `Any::from_ber` (asn1-rs): header, then content with the default recursion limit. -/
def anyFromBer (i : Bytes) : IRes BerError Any :=
  headerFromBer i >>? fun r =>
    getObjectContent maxRecursion r.2 r.1 >>? fun s =>
      .ok (s.1, { header := r.2, data := s.2 })

/-- `parse_ber_any`, /repo/src/ber/wrap_any.rs:32-34. -/
def parseBerAny (i : Bytes) : IRes BerError Any := anyFromBer i

/-- Class of content decoding selected by a universal tag in the `match` of
/repo/src/ber/wrap_any.rs:86-191. -/
inductive UKind where
  | eoc | boolean | integer | bitString | octetString | null | oid | enumerated | relativeOid
  | sequence | set | utcTime | generalizedTime | universalString | bmpString
  | str (k : StrKind)
  | other
deriving DecidableEq, Repr

/-- The tag dispatch of /repo/src/ber/wrap_any.rs:86-191. -/
def uKind : Nat → UKind
  | 0 => .eoc
  | 1 => .boolean
  | 2 => .integer
  | 3 => .bitString
  | 4 => .octetString
  | 5 => .null
  | 6 => .oid
  | 7 => .str .objectDescriptor
  | 10 => .enumerated
  | 12 => .str .utf8
  | 13 => .relativeOid
  | 16 => .sequence
  | 17 => .set
  | 18 => .str .numeric
  | 19 => .str .printable
  | 20 => .str .t61
  | 21 => .str .videotex
  | 22 => .str .ia5
  | 23 => .utcTime
  | 24 => .generalizedTime
  | 25 => .str .graphic
  | 26 => .str .visible
  | 27 => .str .general
  | 28 => .universalString
  | 30 => .bmpString
  | _ => .other

/-- Iteration of `SequenceIterator<Any, BerParser>` / `SetIterator` (asn1-rs) composed with the
`map` and `collect` of /repo/src/ber/wrap_any.rs:147-152 and 158-163: parse `Any`s one after the
other until the data is empty, converting each one with `conv` before the next is read; the
first error stops the collection.  Fuel as in `skipLoop`. -/
def collectItems (conv : Any → Res BerObject) : Nat → Bytes → Res (List BerObject)
  | 0, _ => .diverge
  | fuel + 1, data =>
    match data with
    | [] => .ok []
    | _ :: _ =>
      (anyFromBer data).mapErr errOfNom >>? fun r =>
        conv r.2 >>? fun o =>
          collectItems conv fuel r.1 >>? fun os => .ok (o :: os)

/-- The `STRING` arm of `from_obj!`, /repo/src/ber/wrap_any.rs:44-52. -/
def strFromAny (D : Deps) (k : StrKind) (a : Any) : Res Content :=
  if a.header.constructed then .err .unsupported
  else if validCharset D k a.data then
    if validUtf8 a.data then .ok (.str k a.data) else .err .stringInvalidCharset
  else .err .stringInvalidCharset

/-- Body of `try_berobject_from_any` for universal objects, /repo/src/ber/wrap_any.rs:86-191;
`conv` converts a child with `max_depth - 1`. -/
def universalContent (D : Deps) (conv : Any → Res BerObject) (a : Any) : Res Content :=
  match uKind a.header.tag with
  | .bitString =>
    match a.data with
    | [] => .err .berValueError
    | b :: rest =>
      if a.header.constructed then .err .unsupported else .ok (.bitString b rest)
  | .bmpString =>
    if a.header.constructed then .err .unsupported
    else if a.data.length % 2 ≠ 0 then .err .unsupported
    else if validUtf16 (utf16Units a.data) then .ok (.bmpString a.data)
    else .err .stringInvalidCharset
  | .boolean => a.bool.map .boolean
  | .eoc => .ok .endOfContent
  | .enumerated => a.enumerated.map .enum
  | .generalizedTime => (liftExcept (D.generalizedTime a.header.constructed a.data)).map .generalizedTime
  | .str k => strFromAny D k a
  | .integer => .ok (.integer a.data)
  | .null => .ok .null
  | .octetString => .ok (.octetString a.data)
  | .oid => .ok (.oid a.data)
  | .relativeOid => .ok (.relativeOid a.data)
  | .sequence =>
    a.header.assertConstructed >>? fun _ =>
      (collectItems conv (a.data.length + 1) a.data).map .sequence
  | .set =>
    a.header.assertConstructed >>? fun _ =>
      (collectItems conv (a.data.length + 1) a.data).map .set
  | .utcTime => (liftExcept (D.utcTime a.header.constructed a.data)).map .utcTime
  | .universalString =>
    if a.header.constructed then .err .unsupported else .ok (.universalString a.data)
  | .other => .ok (.unknown a)

/-- `try_berobject_from_any`, /repo/src/ber/wrap_any.rs:79-192. -/
def objectFromAny (D : Deps) : Nat → Any → Res BerObject
  | 0, _ => .err .berMaxDepth
  | depth + 1, a =>
    if a.header.cls ≠ .universal then .ok (.mk a.header (.unknown a))
    else (universalContent D (objectFromAny D depth) a).map (.mk a.header)

/-- `parse_ber_any_r`, /repo/src/ber/wrap_any.rs:24-29. -/
def parseBerAnyR (D : Deps) (maxDepth : Nat) (i : Bytes) : IRes BerError BerObject :=
  if maxDepth = 0 then .err (.error .berMaxDepth)
  else
    anyFromBer i >>? fun r =>
      liftRes (objectFromAny D maxDepth r.2) >>? fun o => .ok (r.1, o)

/-- `parse_ber_any_with_tag_r`, /repo/src/ber/wrap_any.rs:13-19. -/
def parseBerAnyWithTagR (D : Deps) (tag : Nat) (maxDepth : Nat) (i : Bytes) :
    IRes BerError BerObject :=
  if maxDepth = 0 then .err (.error .berMaxDepth)
  else
    anyFromBer i >>? fun r =>
      liftRes (r.2.header.assertTag tag) >>? fun _ =>
        liftRes (objectFromAny D maxDepth r.2) >>? fun o => .ok (r.1, o)

/-- `parse_ber_recursive`, /repo/src/ber/parser.rs:618-620. -/
def parseBerRecursive (D : Deps) (maxDepth : Nat) (i : Bytes) : IRes BerError BerObject :=
  parseBerAnyR D maxDepth i

/-- `parse_ber`, /repo/src/ber/parser.rs:639-641. -/
def parseBer (D : Deps) (i : Bytes) : IRes BerError BerObject :=
  parseBerRecursive D maxRecursion i

/-- `ber_read_element_content_as` = `try_read_berobjectcontent_as`,
/repo/src/ber/parser.rs:144-152 and /repo/src/ber/wrap_any.rs:58-76. -/
def berReadElementContentAs (D : Deps) (i : Bytes) (tag : Nat) (length : Length)
    (constructed : Bool) (maxDepth : Nat) : IRes BerError Content :=
  let go : IRes BerError Content :=
    let header := Header.new .universal constructed tag length
    getObjectContent maxDepth header i >>? fun r =>
      liftRes (objectFromAny D maxDepth { header, data := r.2 }) >>? fun o =>
        .ok (r.1, o.content)
  match length with
  | .definite l =>
    if maxObjectSize < l then .err (.error .invalidLength)
    else if i.length < l then .err (.incomplete (Needed.new l))
    else go
  | .indefinite => go

/-- `parse_ber_content` / `parse_ber_content2`, /repo/src/ber/parser.rs:178-184, 210-216. -/
def parseBerContent (D : Deps) (tag : Nat) (i : Bytes) (hdr : Header) (maxDepth : Nat) :
    IRes BerError Content :=
  berReadElementContentAs D i tag hdr.length hdr.constructed maxDepth

/-- `parse_ber_with_tag`, /repo/src/ber/parser.rs:233-245.  All `parse_ber_xxx` of
/repo/src/ber/parser.rs:249-443 are instances. -/
def parseBerWithTag (D : Deps) (tag : Nat) (i : Bytes) : IRes BerError BerObject :=
  headerFromBer i >>? fun r =>
    liftRes (r.2.assertTag tag) >>? fun _ =>
      berReadElementContentAs D r.1 r.2.tag r.2.length r.2.constructed maxRecursion >>? fun s =>
        .ok (s.1, .mk r.2 s.2)

/-- `TryFrom<Any>` / `TryFrom<&Any>` for `BerObject`, /repo/src/ber/ber.rs:724-756. -/
def objectTryFromAny (D : Deps) (a : Any) : Res BerObject :=
  (berReadElementContentAs D a.data a.header.tag a.header.length a.header.constructed
    maxRecursion).mapErr errOfNom |>.map fun r => .mk a.header r.2

/-- Second half of `trim_slice` (asn1-rs): the octets before the first pair of neighbours that is not
`ff` followed by an octet with the highest bit set are dropped; the last octet stays. -/
def removeFF : Bytes → Bytes
  | [] => []
  | [b] => [b]
  | b :: c :: rest => if b = 0xff ∧ 128 ≤ c.toNat then removeFF (c :: rest) else b :: c :: rest

/-- `trim_slice` (asn1-rs, `asn1_types/integer.rs`): "all leading zeroes removed (if positive) and extra
0xff removed (if negative)"; other first octets leave the slice as it is. -/
def trimSlice : Bytes → Bytes
  | [] => []
  | b :: rest =>
    if b = 0 then removeZeroes (b :: rest)
    else if b = 0xff then removeFF (b :: rest)
    else b :: rest

/-- `decode_array_uint::<N>` of asn1-rs; like `decode_array_uintN` of /repo/src/ber/integer.rs, but on
the slice trimmed by `trim_slice`.  The `assert!` is explicit. -/
def asnDecodeArrayUint (n : Nat) (bs : Bytes) : Res Bytes :=
  if isHighestBitSet bs then .err .integerNegative
  else
    let input := trimSlice bs
    if n < input.length then .err .integerTooLarge
    else if ¬ input.length ≤ n then .panic
    else .ok (List.replicate (n - input.length) 0 ++ input)

/-- `decode_array_int::<N>` of asn1-rs: the trimmed slice, padded with `0xff`. -/
def asnDecodeArrayInt (n : Nat) (bs : Bytes) : Res Bytes :=
  let input := trimSlice bs
  if n < input.length then .err .integerTooLarge
  else .ok (List.replicate (n - input.length) 0xff ++ input)

/-- Native integers from `Any` (asn1-rs `TryFrom<Any> for uN`), `n` bytes. -/
def uintFromAny (n : Nat) (a : Any) : Res Nat :=
  a.header.assertTag Tag.integer >>? fun _ =>
    a.header.assertPrimitive >>? fun _ =>
      (asnDecodeArrayUint n a.data).map beNat

/-- Native signed integers from `Any` (asn1-rs `TryFrom<Any> for iN`), `n` bytes; non-negative
values are read as unsigned and must fit. -/
def intFromAny (n : Nat) (a : Any) : Res Int :=
  a.header.assertTag Tag.integer >>? fun _ =>
    a.header.assertPrimitive >>? fun _ =>
      if isHighestBitSet a.data then
        (asnDecodeArrayInt n a.data).map fun x => asSigned (8 * n) (beNat x)
      else
        asnDecodeArrayUint n a.data >>? fun x =>
          if 2 ^ (8 * n - 1) ≤ beNat x then .err .integerTooLarge else .ok (beNat x : Int)

/-- `parse_ber_u32` / `parse_ber_u64` (`n` = 4 / 8), /repo/src/ber/parser.rs:580-591:
`<uN>::from_ber`, i.e. `Any::from_ber` then `TryFrom`. -/
def parseBerUint (n : Nat) (i : Bytes) : IRes BerError Nat :=
  anyFromBer i >>? fun r => liftRes (uintFromAny n r.2) >>? fun v => .ok (r.1, v)

/-- `parse_ber_i32` / `parse_ber_i64` (`n` = 4 / 8), /repo/src/ber/parser.rs:562-573. -/
def parseBerInt (n : Nat) (i : Bytes) : IRes BerError Int :=
  anyFromBer i >>? fun r => liftRes (intFromAny n r.2) >>? fun v => .ok (r.1, v)

end Verif
