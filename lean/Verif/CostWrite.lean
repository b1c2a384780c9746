import Verif.Cost
import Verif.Serialize
/-!
# Number of octets written by the serializer

The functions of `Verif/Serialize.lean` again, counting the octets that are written: to the output of the caller and to
the buffers that `gen_simple` fills for headers and contents.  `Verif/Props/CostWrite.lean` shows that the results are
those of the uncounted functions.
-/
namespace Verif
open Outcome

/-- `slice(s)(out)`, `be_u8(b)(out)`: all octets are written once. -/
def writeT (s : Bytes) : Tick Empty Bytes := (.ok s, s.length)

/-- `ber_encode_header`, /repo/src/ber/serialize.rs:42-54. -/
def encodeHeaderT (h : Header) : Tick Empty Bytes :=
  (Tick.free (encodeHeader h)).bind writeT

mutual
/-- `ber_encode_object_content`, /repo/src/ber/serialize.rs:116-172, with `ber_encode_oid` (L56-61) and
`ber_encode_datetime` (L63-68). -/
def encodeContentT (D : Deps) : Content → Tick Empty Bytes
  | .endOfContent => writeT [0]
  | .boolean b => writeT [if b then 0xff else 0]
  | .integer s => writeT s
  | .bitString u s => writeT (u :: s)
  | .octetString s => writeT s
  | .null => .free (.ok [])
  | .enum n => writeT (skipZeroes (toBeBytes 8 n))
  | .oid s => writeT s
  | .relativeOid s => writeT s
  | .utcTime t => writeT (D.display t)
  | .generalizedTime t => writeT (D.display t)
  | .str _ s => writeT s
  | .bmpString s => writeT s
  | .universalString s => writeT s
  | .sequence l => encodeListT D l
  | .set l => encodeListT D l
  | .optionalSome o => encodeInnerContentT D o
  | .optionalNone => .free (.ok [])
  | .tagged _ _ o => encodeObjectT D o
  | .unknown a => writeT a.data
/-- `ber_encode_object`, /repo/src/ber/serialize.rs:197-208: the content is written to a buffer of its own, then the
header to another one, then both buffers to the output. -/
def encodeObjectT (D : Deps) : BerObject → Tick Empty Bytes
  | .mk h c =>
    (encodeContentT D c).bind fun v =>
      (encodeHeaderT { h with length := .definite v.length }).bind fun vh =>
        (writeT vh).bind fun _ => (writeT v).bind fun _ => .free (.ok (vh ++ v))
/-- `ber_encode_object_content(&obj.content)` in the `Optional(Some(obj))` arm, /repo/src/ber/serialize.rs:161. -/
def encodeInnerContentT (D : Deps) : BerObject → Tick Empty Bytes
  | .mk _ c => encodeContentT D c
/-- `ber_encode_sequence` = `many_ref(v, ber_encode_object)`, /repo/src/ber/serialize.rs:70-74. -/
def encodeListT (D : Deps) : List BerObject → Tick Empty Bytes
  | [] => .free (.ok [])
  | o :: os => (encodeObjectT D o).bind fun a => (encodeListT D os).bind fun b => .free (.ok (a ++ b))
end

end Verif
