import Verif.Named
/-!
# Methods of `BerObject` and `BitStringObject` that delegate to header or content

Model of /repo/src/ber/ber.rs:113-118, 228-395, 876-880.
-/
namespace Verif
namespace BerObject

/-- `from_header_and_content`, /repo/src/ber/ber.rs:113-118. -/
def fromHeaderAndContent (h : Header) (c : Content) : BerObject := .mk h c
/-- `as_bool`, /repo/src/ber/ber.rs:230-232. -/
def asBool (o : BerObject) : Res Bool := o.content.asBool
/-- `as_oid`, /repo/src/ber/ber.rs:236-238. -/
def asOid (o : BerObject) : Res Bytes := o.content.asOid
/-- `as_oid_val`, /repo/src/ber/ber.rs:242-244; the content's version clones `as_oid`,
/repo/src/ber/ber.rs:536-538. -/
def asOidVal (o : BerObject) : Res Bytes := o.content.asOid
/-- `as_optional`, /repo/src/ber/ber.rs:248-250. -/
def asOptional (o : BerObject) : Res (Option BerObject) := o.content.asOptional
/-- `as_tagged`, /repo/src/ber/ber.rs:254-256. -/
def asTagged (o : BerObject) : Res (Class × Nat × BerObject) := o.content.asTagged
/-- `as_bitstring_ref`, /repo/src/ber/ber.rs:263-265. -/
def asBitstringRef (o : BerObject) : Res Bytes := o.content.asBitstring
/-- `as_bitstring`, /repo/src/ber/ber.rs:269-271. -/
def asBitstring (o : BerObject) : Res Bytes := o.content.asBitstring
/-- `as_bitslice`, /repo/src/ber/ber.rs:275-277. -/
def asBitslice (o : BerObject) : Res (List Bool) := o.content.asBitslice
/-- `as_sequence`, /repo/src/ber/ber.rs:281-283. -/
def asSequence (o : BerObject) : Res (List BerObject) := o.content.asSequence
/-- `as_set`, /repo/src/ber/ber.rs:287-289. -/
def asSet (o : BerObject) : Res (List BerObject) := o.content.asSet
/-- `as_slice`, /repo/src/ber/ber.rs:295-297. -/
def asSlice (o : BerObject) : Res Bytes := o.content.asSlice
/-- `as_str`, /repo/src/ber/ber.rs:304-306. -/
def asStr (o : BerObject) : Res Bytes := o.content.asStr

/-- `class`, /repo/src/ber/ber.rs:310-312. -/
def cls (o : BerObject) : Class := o.header.cls
/-- `tag`, /repo/src/ber/ber.rs:316-318. -/
def tag (o : BerObject) : Nat := o.header.tag
/-- `length`, /repo/src/ber/ber.rs:322-324. -/
def length (o : BerObject) : Length := o.header.length
/-- `is_universal`, /repo/src/ber/ber.rs:328-330. -/
def isUniversal (o : BerObject) : Bool := o.header.cls == .universal
/-- `is_application`, /repo/src/ber/ber.rs:333-335. -/
def isApplication (o : BerObject) : Bool := o.header.cls == .application
/-- `is_contextspecific`, /repo/src/ber/ber.rs:338-340. -/
def isContextspecific (o : BerObject) : Bool := o.header.cls == .contextSpecific
/-- `is_private`, /repo/src/ber/ber.rs:343-345. -/
def isPrivate (o : BerObject) : Bool := o.header.cls == .priv
/-- `is_primitive`, /repo/src/ber/ber.rs:349-351. -/
def isPrimitive (o : BerObject) : Bool := !o.header.constructed
/-- `is_constructed`, /repo/src/ber/ber.rs:354-356. -/
def isConstructed (o : BerObject) : Bool := o.header.constructed
/-- `assert_class`, /repo/src/ber/ber.rs:360-362 (`Header::assert_class` of asn1-rs). -/
def assertClass (o : BerObject) (c : Class) : Res Unit :=
  if o.header.cls = c then .ok () else .err (.unexpectedClass (some c) o.header.cls)
/-- `assert_tag`, /repo/src/ber/ber.rs:366-368. -/
def assertTag (o : BerObject) (t : Nat) : Res Unit := o.header.assertTag t
/-- `assert_constructed`, /repo/src/ber/ber.rs:372-374. -/
def assertConstructed (o : BerObject) : Res Unit := o.header.assertConstructed
/-- `assert_primitive`, /repo/src/ber/ber.rs:378-380. -/
def assertPrimitive (o : BerObject) : Res Unit := o.header.assertPrimitive

/-- `From<BerObjectContent>`, /repo/src/ber/ber.rs:391-395. -/
def ofContent (c : Content) : BerObject := .fromObj c

end BerObject

/-- `AsRef<[u8]> for BitStringObject`, /repo/src/ber/ber.rs:876-880: the data octets. -/
def bitStringAsRef (data : Bytes) : Bytes := data

end Verif
