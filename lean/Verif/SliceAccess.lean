import Verif.SliceSchema
/-!
# The accessors on slices that know where they lie

The accessors of `Verif/Object.lean` that lend a part of an object, a second time, on the objects of
`Verif/Slice.lean`: what is lent is a slice of the input (`&'a [u8]`, `&'a str`, `&Oid<'a>`,
`BitStringObject<'a>`) or an object inside the object (`&BerObject<'a>`, `&Vec<BerObject<'a>>`).  A `&str` is
the slice of its octets and an `Oid` or `BitStringObject` is the slice it holds.
-/
namespace Verif
open Outcome

namespace SContent

/-- `as_oid`, /repo/src/ber/ber.rs:528-534. -/
def asOid : SContent → Res Slice
  | .oid s => .ok s
  | .relativeOid s => .ok s
  | _ => .err .berTypeError

/-- `as_oid_val`, /repo/src/ber/ber.rs:536-538: `clone` of an `Oid` that borrows its octets borrows the same
octets (`Cow::Borrowed`). -/
def asOidVal (c : SContent) : Res Slice := c.asOid.map id

/-- `as_optional`, /repo/src/ber/ber.rs:540-546. -/
def asOptional : SContent → Res (Option SObject)
  | .optionalSome o => .ok (some o)
  | .optionalNone => .ok none
  | _ => .err .berTypeError

/-- `as_tagged`, /repo/src/ber/ber.rs:548-553. -/
def asTagged : SContent → Res (Class × Nat × SObject)
  | .tagged cls tag o => .ok (cls, tag, o)
  | _ => .err .berTypeError

/-- `as_bitstring_ref` and `as_bitstring`, /repo/src/ber/ber.rs:555-567: the copy of a `BitStringObject` borrows
the same octets. -/
def asBitstring : SContent → Res Slice
  | .bitString _ s => .ok s
  | _ => .err .berTypeError

/-- `as_sequence`, /repo/src/ber/ber.rs:577-582. -/
def asSequence : SContent → Res (List SObject)
  | .sequence l => .ok l
  | _ => .err .berTypeError

/-- `as_set`, /repo/src/ber/ber.rs:584-589. -/
def asSet : SContent → Res (List SObject)
  | .set l => .ok l
  | _ => .err .berTypeError

/-- `as_slice`, /repo/src/ber/ber.rs:592-612. -/
def asSlice : SContent → Res Slice
  | .str _ s => .ok s
  | .integer s => .ok s
  | .bitString _ s => .ok s
  | .octetString s => .ok s
  | .bmpString s => .ok s
  | .universalString s => .ok s
  | .unknown a => .ok a.data
  | _ => .err .berTypeError

/-- `as_str`, /repo/src/ber/ber.rs:615-629. -/
def asStr : SContent → Res Slice
  | .str _ s => .ok s
  | _ => .err .berTypeError

end SContent

/-- State of `BerObjectRefIterator`, /repo/src/ber/ber.rs:811-814. -/
structure SRefIter where
  obj : SObject
  idx : Nat

/-- `BerObjectRefIterator::next`, /repo/src/ber/ber.rs:818-826. -/
def SRefIter.next (it : SRefIter) : Option SObject × SRefIter :=
  let res :=
    match it.obj.content with
    | .sequence v => if it.idx < v.length then v[it.idx]? else none
    | .set v => if it.idx < v.length then v[it.idx]? else none
    | _ => none
  (res, { it with idx := it.idx + 1 })

/-- `Index<usize>::index`, /repo/src/ber/ber.rs:838-849; the last arm is `panic!`. -/
def SObject.index (o : SObject) (idx : Nat) : Outcome Empty SObject :=
  let get (v : List SObject) : Outcome Empty SObject :=
    if idx < v.length then
      match v[idx]? with
      | some x => .ok x
      | none => .panic
    else .panic
  match o.content with
  | .sequence v => get v
  | .set v => get v
  | _ => .panic

/-- `parse_ber_slice` (/repo/src/ber/parser.rs:595-601), `parse_der_slice` (/repo/src/der/parser.rs:403-409).  The
closure leaves `&b""[..]` over, a slice of the program and not of the input, which the container drops;
here it is the slice of length 0 at the end of the contents. -/
def sParseSlice (R : Rules) (tag : Nat) (mem : Bytes) : Slice → SRes BerError Slice :=
  sContainer R mem fun content hdr =>
    liftRes ((hdr.read mem).assertTag tag) >>? fun _ => .ok (⟨content.off + content.len, 0⟩, content)

end Verif
