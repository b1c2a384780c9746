import Verif.Asn1
/-!
# BER objects: model of /repo/src/ber/ber.rs and /repo/src/ber/integer.rs
-/
namespace Verif
open Outcome

/-! ## Objects -/

mutual
/-- `BerObject`, /repo/src/ber/ber.rs:26-29. -/
inductive BerObject where
  | mk (header : Header) (content : Content)
/-- `BerObjectContent`, /repo/src/ber/ber.rs:34-105.  The ten `&str` variants are merged in
`str`; `Optional(None)`/`Optional(Some(_))` are two constructors; OIDs are their bytes (the flag
`relative` of `Oid`, which reading sets according to the variant, is left out). -/
inductive Content where
  | endOfContent
  | boolean (b : Bool)
  | integer (bs : Bytes)
  | bitString (unused : UInt8) (data : Bytes)
  | octetString (bs : Bytes)
  | null
  | enum (n : Nat)
  | oid (bs : Bytes)
  | relativeOid (bs : Bytes)
  | str (k : StrKind) (bs : Bytes)
  | bmpString (bs : Bytes)
  | universalString (bs : Bytes)
  | sequence (l : List BerObject)
  | set (l : List BerObject)
  | utcTime (t : DateTime)
  | generalizedTime (t : DateTime)
  | optionalNone
  | optionalSome (o : BerObject)
  | tagged (cls : Class) (tag : Nat) (o : BerObject)
  | unknown (a : Any)
end

/-- Field `header`, /repo/src/ber/ber.rs:27. -/
def BerObject.header : BerObject → Header | .mk h _ => h
/-- Field `content`, /repo/src/ber/ber.rs:28. -/
def BerObject.content : BerObject → Content | .mk _ c => c

@[simp] theorem BerObject.header_mk (h : Header) (c : Content) : (BerObject.mk h c).header = h := rfl
@[simp] theorem BerObject.content_mk (h : Header) (c : Content) :
    (BerObject.mk h c).content = c := rfl
@[simp] theorem BerObject.eta (o : BerObject) : BerObject.mk o.header o.content = o := by
  cases o; rfl

/-- `PartialEq` for `asn1_rs::Header`: class, constructed flag and tag are equal, and the raw tags
too when both are present.  Lengths are not compared: the tests of /repo compare objects built by
`from_obj` (length zero) with parsed ones (/repo/src/ber/serialize.rs:231-239 and 268-275). -/
def Header.rustEq (h h' : Header) : Bool :=
  h.cls = h'.cls && h.constructed = h'.constructed && h.tag = h'.tag &&
    match h.rawTag, h'.rawTag with
    | some r, some r' => decide (r = r')
    | _, _ => true

mutual
/-- `#[derive(PartialEq)]` for `BerObject`, /repo/src/ber/ber.rs:25. -/
def BerObject.rustEq : BerObject → BerObject → Bool
  | .mk h c, .mk h' c' => h.rustEq h' && Content.rustEq c c'
/-- `#[derive(PartialEq)]` for `BerObjectContent`, /repo/src/ber/ber.rs:32. -/
def Content.rustEq : Content → Content → Bool
  | .endOfContent, .endOfContent => true
  | .boolean b, .boolean b' => b = b'
  | .integer s, .integer s' => s = s'
  | .bitString u s, .bitString u' s' => u = u' && s = s'
  | .octetString s, .octetString s' => s = s'
  | .null, .null => true
  | .enum n, .enum n' => n = n'
  | .oid s, .oid s' => s = s'
  | .relativeOid s, .relativeOid s' => s = s'
  | .str k s, .str k' s' => k = k' && s = s'
  | .bmpString s, .bmpString s' => s = s'
  | .universalString s, .universalString s' => s = s'
  | .sequence l, .sequence l' => listRustEq l l'
  | .set l, .set l' => listRustEq l l'
  | .utcTime t, .utcTime t' => t = t'
  | .generalizedTime t, .generalizedTime t' => t = t'
  | .optionalNone, .optionalNone => true
  | .optionalSome o, .optionalSome o' => BerObject.rustEq o o'
  | .tagged c t o, .tagged c' t' o' => c = c' && t = t' && BerObject.rustEq o o'
  | .unknown a, .unknown a' => a.header.rustEq a'.header && a.data = a'.data
  | _, _ => false
/-- `Vec<BerObject>` equality. -/
def listRustEq : List BerObject → List BerObject → Bool
  | [], [] => true
  | o :: l, o' :: l' => BerObject.rustEq o o' && listRustEq l l'
  | _, _ => false
end

/-- Universal tag of a `&str` variant, part of `BerObjectContent::tag`,
/repo/src/ber/ber.rs:642-658. -/
def StrKind.tag : StrKind → Nat
  | .numeric => Tag.numericString
  | .visible => Tag.visibleString
  | .printable => Tag.printableString
  | .ia5 => Tag.ia5String
  | .utf8 => Tag.utf8String
  | .t61 => Tag.teletexString
  | .videotex => Tag.videotexString
  | .objectDescriptor => Tag.objectDescriptor
  | .graphic => Tag.graphicString
  | .general => Tag.generalString

mutual
/-- `BerObjectContent::tag`, /repo/src/ber/ber.rs:632-664. -/
def Content.tag : Content → Nat
  | .endOfContent => Tag.endOfContent
  | .boolean _ => Tag.boolean
  | .integer _ => Tag.integer
  | .bitString _ _ => Tag.bitString
  | .octetString _ => Tag.octetString
  | .null => Tag.null
  | .enum _ => Tag.enumerated
  | .oid _ => Tag.oid
  | .relativeOid _ => Tag.relativeOid
  | .str k _ => k.tag
  | .bmpString _ => Tag.bmpString
  | .universalString _ => Tag.universalString
  | .sequence _ => Tag.sequence
  | .set _ => Tag.set
  | .utcTime _ => Tag.utcTime
  | .generalizedTime _ => Tag.generalizedTime
  | .optionalNone => 0
  | .optionalSome o => BerObject.contentTag o
  | .tagged _ t _ => t
  | .unknown a => a.header.tag
/-- `obj.content.tag()` in the `Optional(Some(obj))` case, /repo/src/ber/ber.rs:661. -/
def BerObject.contentTag : BerObject → Nat
  | .mk _ c => c.tag
end

/-- `BerObject::from_obj`, /repo/src/ber/ber.rs:122-128. -/
def BerObject.fromObj (c : Content) : BerObject :=
  .mk (Header.new .universal (decide (c.tag = Tag.sequence ∨ c.tag = Tag.set)) c.tag
        (.definite 0)) c

/-- `BerObject::from_int_slice`, /repo/src/ber/ber.rs:131-137. -/
def BerObject.fromIntSlice (i : Bytes) : BerObject :=
  .mk (Header.new .universal false Tag.integer (.definite 0)) (.integer i)

/-- `BerObject::from_seq`, /repo/src/ber/ber.rs:146-148. -/
def BerObject.fromSeq (l : List BerObject) : BerObject := .fromObj (.sequence l)

/-- `BerObject::from_set`, /repo/src/ber/ber.rs:151-153. -/
def BerObject.fromSet (l : List BerObject) : BerObject := .fromObj (.set l)

/-- `BerObject::set_raw_tag`, /repo/src/ber/ber.rs:140-143. -/
def BerObject.setRawTag (o : BerObject) (raw : Option Bytes) : BerObject :=
  .mk { o.header with rawTag := raw } o.content

/-! ## Integers: /repo/src/ber/integer.rs -/

/-- `is_highest_bit_set`, /repo/src/ber/integer.rs:125-130. -/
def isHighestBitSet : Bytes → Bool
  | [] => false
  | b :: _ => decide (128 ≤ b.toNat)

/-- `remove_zeroes`, /repo/src/ber/integer.rs:7-18 (never fails). -/
def removeZeroes : Bytes → Bytes
  | [] => []
  | [b] => [b]
  | b :: c :: rest => if b = 0 then removeZeroes (c :: rest) else b :: c :: rest

/-- `<uN>::from_be_bytes`: big-endian value. -/
def beNat : Bytes → Nat
  | bs => bs.foldl (fun u b => u * 256 + b.toNat) 0

/-- `decode_array_uint8` / `decode_array_uint4` (`n` = 8 / 4), /repo/src/ber/integer.rs:41-75:
the `n`-byte array with the input right-aligned. The `assert!` at L54/L72 is explicit. -/
def decodeArrayUint (n : Nat) (bs : Bytes) : Res Bytes :=
  if isHighestBitSet bs then .err .integerNegative
  else
    let input := removeZeroes bs
    if n < input.length then .err .integerTooLarge
    else if ¬ input.length ≤ n then .panic
    else .ok (List.replicate (n - input.length) 0 ++ input)

/-- `decode_array_int8` / `decode_array_int4` (`n` = 8 / 4), /repo/src/ber/integer.rs:95-121:
padding is `0xff`. -/
def decodeArrayInt (n : Nat) (bs : Bytes) : Res Bytes :=
  let input := removeZeroes bs
  if n < input.length then .err .integerTooLarge
  else .ok (List.replicate (n - input.length) 0xff ++ input)

/-- `<iN>::from_be_bytes`, or `uN as iN`: reinterpretation modulo `2^bits`. -/
def asSigned (bits : Nat) (u : Nat) : Int :=
  if u < 2 ^ (bits - 1) then (u : Int) else (u : Int) - (2 ^ bits : Nat)

/-- `as_i64` / `as_i32` (`n` = 8 / 4) on content, /repo/src/ber/ber.rs:412-423, 439-450. -/
def Content.asSignedInt (n : Nat) : Content → Res Int
  | .integer bs =>
    if isHighestBitSet bs then (decodeArrayInt n bs).map fun a => asSigned (8 * n) (beNat a)
    else (decodeArrayUint n bs).map fun a => asSigned (8 * n) (beNat a)
  | _ => .err .berValueError

/-- `as_i64`, /repo/src/ber/ber.rs:169-171, 412-423. -/
def BerObject.asI64 (o : BerObject) : Res Int := o.content.asSignedInt 8
/-- `as_i32`, /repo/src/ber/ber.rs:187-189, 439-450. -/
def BerObject.asI32 (o : BerObject) : Res Int := o.content.asSignedInt 4

/-- Loop of `bitstring_to_u64`, /repo/src/ber/parser.rs:93-97: `u64` shift left by 8 (dropping
high bits) and or. -/
def shiftOr64 (bs : Bytes) : Nat :=
  bs.foldl (fun u b => (u * 256) % 18446744073709551616 + b.toNat) 0

/-- `bitstring_to_u64`, /repo/src/ber/parser.rs:76-99.  The slice `raw_bytes[..num_bytes]`
(L94) panics when out of range. -/
def bitstringToU64 (padding : Nat) (data : Bytes) : Res Nat :=
  if data.length * 8 < padding then .err .invalidLength
  else
    let bitSize := data.length * 8 - padding
    if 64 < bitSize then .err .integerTooLarge
    else
      let pad := padding % 8
      let numBytes := if 0 < bitSize % 8 then bitSize / 8 + 1 else bitSize / 8
      if data.length < numBytes then .panic
      else .ok (shiftOr64 (data.take numBytes) / 2 ^ pad)

/-- `as_u64` on content, /repo/src/ber/ber.rs:466-478. -/
def Content.asU64 : Content → Res Nat
  | .integer i => (decodeArrayUint 8 i).map beNat
  | .bitString u d => bitstringToU64 u.toNat d
  | .enum n => .ok n
  | _ => .err .berTypeError

/-- `as_u32` on content, /repo/src/ber/ber.rs:495-519. -/
def Content.asU32 : Content → Res Nat
  | .integer i => (decodeArrayUint 4 i).map beNat
  | .bitString u d =>
    bitstringToU64 u.toNat d >>? fun x =>
      if 4294967295 < x then .err .integerTooLarge else .ok x
  | .enum n => if 4294967295 < n then .err .integerTooLarge else .ok n
  | _ => .err .berTypeError

/-- `as_u64`, /repo/src/ber/ber.rs:205-207. -/
def BerObject.asU64 (o : BerObject) : Res Nat := o.content.asU64
/-- `as_u32`, /repo/src/ber/ber.rs:224-226. -/
def BerObject.asU32 (o : BerObject) : Res Nat := o.content.asU32

/-- `BigInt::from_signed_bytes_be` (num-bigint, trusted): two's complement, big-endian; the
empty slice is zero. -/
def bigIntFromSignedBytesBe (bs : Bytes) : Int :=
  if isHighestBitSet bs then (beNat bs : Int) - (2 ^ (8 * bs.length) : Nat) else beNat bs

/-- `as_bigint`, /repo/src/ber/ber.rs:689-694. -/
def BerObject.asBigint (o : BerObject) : Res Int :=
  match o.content with
  | .integer s => .ok (bigIntFromSignedBytesBe s)
  | _ => .err .berValueError

/-- `as_biguint`, /repo/src/ber/ber.rs:711-721 (`BigUint::from_bytes_be` is `beNat`). -/
def BerObject.asBiguint (o : BerObject) : Res Nat :=
  match o.content with
  | .integer s => if isHighestBitSet s then .err .integerNegative else .ok (beNat s)
  | _ => .err .berValueError

/-! ## Accessors, /repo/src/ber/ber.rs:521-629 -/

/-- `as_bool`, /repo/src/ber/ber.rs:521-526. -/
def Content.asBool : Content → Res Bool
  | .boolean b => .ok b
  | _ => .err .berTypeError

/-- `as_oid`, /repo/src/ber/ber.rs:528-534. -/
def Content.asOid : Content → Res Bytes
  | .oid o => .ok o
  | .relativeOid o => .ok o
  | _ => .err .berTypeError

/-- `as_optional`, /repo/src/ber/ber.rs:540-546. -/
def Content.asOptional : Content → Res (Option BerObject)
  | .optionalSome o => .ok (some o)
  | .optionalNone => .ok none
  | _ => .err .berTypeError

/-- `as_tagged`, /repo/src/ber/ber.rs:548-553. -/
def Content.asTagged : Content → Res (Class × Nat × BerObject)
  | .tagged c t o => .ok (c, t, o)
  | _ => .err .berTypeError

/-- `as_bitstring` / `as_bitstring_ref`, /repo/src/ber/ber.rs:555-567. -/
def Content.asBitstring : Content → Res Bytes
  | .bitString _ d => .ok d
  | _ => .err .berTypeError

/-- `as_sequence`, /repo/src/ber/ber.rs:577-582. -/
def Content.asSequence : Content → Res (List BerObject)
  | .sequence l => .ok l
  | _ => .err .berTypeError

/-- `as_set`, /repo/src/ber/ber.rs:584-589. -/
def Content.asSet : Content → Res (List BerObject)
  | .set l => .ok l
  | _ => .err .berTypeError

/-- `as_slice`, /repo/src/ber/ber.rs:592-612. -/
def Content.asSlice : Content → Res Bytes
  | .str _ s => .ok s
  | .integer s => .ok s
  | .bitString _ s => .ok s
  | .octetString s => .ok s
  | .bmpString s => .ok s
  | .universalString s => .ok s
  | .unknown a => .ok a.data
  | _ => .err .berTypeError

/-- `as_str`, /repo/src/ber/ber.rs:615-629 (a `&str` is its UTF-8 bytes). -/
def Content.asStr : Content → Res Bytes
  | .str _ s => .ok s
  | _ => .err .berTypeError

/-- `BitStringObject::is_set`, /repo/src/ber/ber.rs:860-867; `data[byte_pos]` would panic out of
range. -/
def bitStringIsSet (data : Bytes) (bitnum : Nat) : Outcome Empty Bool :=
  let bytePos := bitnum / 8
  if data.length ≤ bytePos then .ok false
  else
    let b := 7 - bitnum % 8
    match data[bytePos]? with
    | none => .panic
    | some x => .ok (x.toNat / 2 ^ b % 2 != 0)

/-! ## Iterators and indexing -/

/-- State of `BerObjectIntoIterator` (`val`, `idx`), /repo/src/ber/ber.rs:773-776. -/
structure IntoIter where
  val : BerObject
  idx : Nat

/-- `BerObjectIntoIterator::next`, /repo/src/ber/ber.rs:780-799. -/
def IntoIter.next (it : IntoIter) : Option BerObject × IntoIter :=
  let res :=
    match it.val.content with
    | .sequence v => if it.idx < v.length then v[it.idx]? else if it.idx = 0 then some it.val else none
    | .set v => if it.idx < v.length then v[it.idx]? else if it.idx = 0 then some it.val else none
    | _ => if it.idx = 0 then some it.val else none
  (res, { it with idx := it.idx + 1 })

/-- `into_iter`, /repo/src/ber/ber.rs:763-769. -/
def BerObject.intoIter (o : BerObject) : IntoIter := { val := o, idx := 0 }

/-- State of `BerObjectRefIterator`, /repo/src/ber/ber.rs:811-814. -/
structure RefIter where
  obj : BerObject
  idx : Nat

/-- `BerObjectRefIterator::next`, /repo/src/ber/ber.rs:818-826. -/
def RefIter.next (it : RefIter) : Option BerObject × RefIter :=
  let res :=
    match it.obj.content with
    | .sequence v => if it.idx < v.length then v[it.idx]? else none
    | .set v => if it.idx < v.length then v[it.idx]? else none
    | _ => none
  (res, { it with idx := it.idx + 1 })

/-- `ref_iter`, /repo/src/ber/ber.rs:830-832. -/
def BerObject.refIter (o : BerObject) : RefIter := { obj := o, idx := 0 }

/-- `Index<usize>::index`, /repo/src/ber/ber.rs:838-849; the last arm is `panic!`. -/
def BerObject.index (o : BerObject) (idx : Nat) : Outcome Empty BerObject :=
  let get (v : List BerObject) : Outcome Empty BerObject :=
    if idx < v.length then
      match v[idx]? with
      | some x => .ok x
      | none => .panic
    else .panic
  match o.content with
  | .sequence v => get v
  | .set v => get v
  | _ => .panic

end Verif
