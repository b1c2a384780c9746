import Verif.Object
/-!
# Serialization: model of /repo/src/ber/serialize.rs

cookie-factory combinators write to a `Vec<u8>`, which never fails: `tuple`, `slice`, `be_u8`,
`many_ref` are concatenation and `gen_simple` returns the bytes.  The only other outcome is the
`unimplemented!()` of L48, modelled as `panic`.
-/
namespace Verif
open Outcome

/-- `usize::to_be_bytes` / `u64::to_be_bytes` (`n = 8`): `n` bytes, big-endian. -/
def toBeBytes : Nat → Nat → Bytes
  | 0, _ => []
  | n + 1, v => UInt8.ofNat (v / 256 ^ n) :: toBeBytes n v

/-- `.skip_while(|&b| b == 0)`, /repo/src/ber/serialize.rs:27, 136. -/
def skipZeroes (bs : Bytes) : Bytes := bs.dropWhile (· == 0)

/-- `encode_length`, /repo/src/ber/serialize.rs:13-36. -/
def encodeLength : Length → Bytes
  | .definite sz =>
    if sz ≤ 0x7f then [UInt8.ofNat sz]
    else
      let v := skipZeroes (toBeBytes 8 sz)
      UInt8.ofNat (128 + v.length) :: v
  | .indefinite => [0x80]

/-- `Class as u8`. -/
def Class.toNat : Class → Nat
  | .universal => 0
  | .application => 1
  | .contextSpecific => 2
  | .priv => 3

/-- `ber_encode_header`, /repo/src/ber/serialize.rs:42-54 (`class << 6 | pc << 5 | tag`: the
three fields do not overlap, so "or" is addition). -/
def encodeHeader (h : Header) : Outcome Empty Bytes :=
  if 30 < h.tag then .panic
  else
    .ok (UInt8.ofNat (h.cls.toNat * 64 + (if h.constructed then 1 else 0) * 32 + h.tag)
          :: encodeLength h.length)

mutual
/-- `ber_encode_object_content`, /repo/src/ber/serialize.rs:116-172, with `ber_encode_oid` (L56-61) and
`ber_encode_datetime` (L63-68). -/
def encodeContent (D : Deps) : Content → Outcome Empty Bytes
  | .endOfContent => .ok [0]
  | .boolean b => .ok [if b then 0xff else 0]
  | .integer s => .ok s
  | .bitString u s => .ok (u :: s)
  | .octetString s => .ok s
  | .null => .ok []
  | .enum n => .ok (skipZeroes (toBeBytes 8 n))
  | .oid s => .ok s
  | .relativeOid s => .ok s
  | .utcTime t => .ok (D.display t)
  | .generalizedTime t => .ok (D.display t)
  | .str _ s => .ok s
  | .bmpString s => .ok s
  | .universalString s => .ok s
  | .sequence l => encodeList D l
  | .set l => encodeList D l
  | .optionalSome o => encodeInnerContent D o
  | .optionalNone => .ok []
  | .tagged _ _ o => encodeObject D o
  | .unknown a => .ok a.data
/-- `ber_encode_object`, /repo/src/ber/serialize.rs:197-208. -/
def encodeObject (D : Deps) : BerObject → Outcome Empty Bytes
  | .mk h c =>
    encodeContent D c >>? fun v =>
      encodeHeader { h with length := .definite v.length } >>? fun vh => .ok (vh ++ v)
/-- `ber_encode_object_content(&obj.content)` in the `Optional(Some(obj))` arm,
/repo/src/ber/serialize.rs:161. -/
def encodeInnerContent (D : Deps) : BerObject → Outcome Empty Bytes
  | .mk _ c => encodeContent D c
/-- `ber_encode_sequence` = `many_ref(v, ber_encode_object)`, /repo/src/ber/serialize.rs:70-74. -/
def encodeList (D : Deps) : List BerObject → Outcome Empty Bytes
  | [] => .ok []
  | o :: os => encodeObject D o >>? fun a => encodeList D os >>? fun b => .ok (a ++ b)
end

/-- `BerObject::to_vec`, /repo/src/ber/serialize.rs:220-222. -/
def toVec (D : Deps) (o : BerObject) : Outcome Empty Bytes := encodeObject D o

/-- `ber_encode_object_raw`, /repo/src/ber/serialize.rs:181-186. -/
def encodeObjectRaw (D : Deps) (h : Header) (c : Content) : Outcome Empty Bytes :=
  encodeHeader h >>? fun vh => encodeContent D c >>? fun v => .ok (vh ++ v)

/-- `ber_encode_tagged_explicit`, /repo/src/ber/serialize.rs:80-94. -/
def encodeTaggedExplicit (D : Deps) (tag : Nat) (cls : Class) (o : BerObject) :
    Outcome Empty Bytes :=
  encodeObject D o >>? fun v =>
    encodeHeader (Header.new cls true tag (.definite v.length)) >>? fun vh => .ok (vh ++ v)

/-- `ber_encode_tagged_implicit`, /repo/src/ber/serialize.rs:100-114. -/
def encodeTaggedImplicit (D : Deps) (tag : Nat) (cls : Class) (o : BerObject) :
    Outcome Empty Bytes :=
  encodeContent D o.content >>? fun v =>
    encodeHeader (Header.new cls o.header.constructed tag (.definite v.length)) >>? fun vh =>
      .ok (vh ++ v)

end Verif
