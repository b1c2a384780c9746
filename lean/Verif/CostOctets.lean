import Verif.Cost
/-!
# Number of octets looked at

The parsers again, counting octets instead of header reads: a header read looks at the octets of the
header, or at no more than 133 if there is none, the conversion of a value that is neither SEQUENCE nor
SET costs `leaf`, and the checks of DER look at no more than two octets of the contents.  Cutting a slice
looks at no octet.  `leaf` is a parameter, because UTF-8 and character checks and the date parsers are
outside of the repository.  `Verif/Props/CostOctets.lean` shows that the results are those of the uncounted
functions, and that no header read depends on octets behind the first 133.
-/
namespace Verif
open Outcome

/-- The octets that a header read at the start of `i` looks at. -/
def headerOctets (p : Bytes → IRes BerError Header) (i : Bytes) : Nat :=
  match p i with
  | .ok r => i.length - r.1.length
  | _ => min i.length 133

/-- A header read with the octets looked at. -/
def lookHeader (p : Bytes → IRes BerError Header) (i : Bytes) : Tick (NomErr BerError) (Bytes × Header) :=
  (p i, headerOctets p i)

/-- A check of DER: of a BOOLEAN the first octet is looked at, of an INTEGER the first two, of a time the
last, of a BIT STRING the first and the last, /repo/src/der/parser.rs:493-546 and 585-618. -/
def lookTwo {ε α : Type} (x : Outcome ε α) : Tick ε α := (x, 2)

/-- Loop of `ber_skip_object_content`, /repo/src/ber/parser.rs:36-45. -/
def skipLoopO (skip : Header → Bytes → Tick (NomErr BerError) (Bytes × Bool)) :
    Nat → Bytes → Tick (NomErr BerError) (Bytes × Bool)
  | 0, _ => .free .diverge
  | fuel + 1, i =>
    (lookHeader headerFromBer i).bind fun r2 =>
      (skip r2.2 r2.1).bind fun r3 =>
        if r3.2 then .free (.ok (r3.1, false)) else skipLoopO skip fuel r3.1

/-- `ber_skip_object_content`, /repo/src/ber/parser.rs:14-48. -/
def skipContentO : Nat → Header → Bytes → Tick (NomErr BerError) (Bytes × Bool)
  | 0, _, _ => .free (.err (.error .berMaxDepth))
  | depth + 1, hdr, i =>
    match hdr.length with
    | .definite l =>
      .free (if l = 0 ∧ hdr.tag = Tag.endOfContent then .ok (i, true)
        else takeStreaming l i >>? fun r => .ok (r.1, false))
    | .indefinite =>
      if hdr.constructed then skipLoopO (skipContentO depth) (i.length + 1) i
      else .free (.err (.error .constructExpected))

/-- `ber_get_object_content`, /repo/src/ber/parser.rs:51-68. -/
def getObjectContentO (depth : Nat) (hdr : Header) (i : Bytes) :
    Tick (NomErr BerError) (Bytes × Bytes) :=
  (skipContentO depth hdr i).bind fun r =>
    let len := i.length - r.1.length
    let content := i.take len
    let rest := i.drop len
    .free (if hdr.length = .indefinite then
      if content.length < 2 then .panic
      else .ok (rest, content.take (content.length - 2))
    else .ok (rest, content))

/-- `Any::from_ber` (asn1-rs), called by /repo/src/ber/wrap_any.rs:24-34. -/
def anyFromBerO (i : Bytes) : Tick (NomErr BerError) (Bytes × Any) :=
  (lookHeader headerFromBer i).bind fun r =>
    (getObjectContentO maxRecursion r.2 r.1).bind fun s =>
      .free (.ok (s.1, { header := r.2, data := s.2 }))

/-- The collection of the items of a SEQUENCE or SET, /repo/src/ber/wrap_any.rs:147-152, 158-163. -/
def collectItemsO (conv : Any → Tick BerError BerObject) :
    Nat → Bytes → Tick BerError (List BerObject)
  | 0, _ => .free .diverge
  | fuel + 1, data =>
    match data with
    | [] => .free (.ok [])
    | _ :: _ =>
      ((anyFromBerO data).mapErr errOfNom).bind fun r =>
        (conv r.2).bind fun o =>
          (collectItemsO conv fuel r.1).bind fun os => .free (.ok (o :: os))

/-- The `match` on universal tags, /repo/src/ber/wrap_any.rs:86-191; the values of other types
are converted at the cost `leaf`. -/
def universalContentO (D : Deps) (leaf : Any → Nat) (conv : Any → Tick BerError BerObject) (a : Any) :
    Tick BerError Content :=
  match uKind a.header.tag with
  | .sequence =>
    (Tick.free a.header.assertConstructed).bind fun _ =>
      (collectItemsO conv (a.data.length + 1) a.data).map .sequence
  | .set =>
    (Tick.free a.header.assertConstructed).bind fun _ =>
      (collectItemsO conv (a.data.length + 1) a.data).map .set
  | _ => (universalContent D (fun b => (conv b).1) a, leaf a)

/-- `try_berobject_from_any`, /repo/src/ber/wrap_any.rs:79-192. -/
def objectFromAnyO (D : Deps) (leaf : Any → Nat) : Nat → Any → Tick BerError BerObject
  | 0, _ => .free (.err .berMaxDepth)
  | depth + 1, a =>
    if a.header.cls ≠ .universal then .free (.ok (.mk a.header (.unknown a)))
    else (universalContentO D leaf (objectFromAnyO D leaf depth) a).map (.mk a.header)

/-- `parse_ber_recursive`, /repo/src/ber/parser.rs:618-620, /repo/src/ber/wrap_any.rs:24-29. -/
def parseBerRecursiveO (D : Deps) (leaf : Any → Nat) (maxDepth : Nat) (i : Bytes) :
    Tick (NomErr BerError) (Bytes × BerObject) :=
  if maxDepth = 0 then .free (.err (.error .berMaxDepth))
  else
    (anyFromBerO i).bind fun r =>
      ((objectFromAnyO D leaf maxDepth r.2).mapErr .error).bind fun o => .free (.ok (r.1, o))

/-- `ber_read_element_content_as`, /repo/src/ber/parser.rs:144-152, /repo/src/ber/wrap_any.rs:58-76. -/
def berReadElementContentAsO (D : Deps) (leaf : Any → Nat) (i : Bytes) (tag : Nat) (length : Length)
    (constructed : Bool) (maxDepth : Nat) : Tick (NomErr BerError) (Bytes × Content) :=
  let go : Tick (NomErr BerError) (Bytes × Content) :=
    let header := Header.new .universal constructed tag length
    (getObjectContentO maxDepth header i).bind fun r =>
      ((objectFromAnyO D leaf maxDepth { header, data := r.2 }).mapErr .error).bind fun o =>
        .free (.ok (r.1, o.content))
  match length with
  | .definite l =>
    if maxObjectSize < l then .free (.err (.error .invalidLength))
    else if i.length < l then .free (.err (.incomplete (Needed.new l)))
    else go
  | .indefinite => go

/-- `parse_ber_with_tag`, /repo/src/ber/parser.rs:233-245. -/
def parseBerWithTagO (D : Deps) (leaf : Any → Nat) (tag : Nat) (i : Bytes) :
    Tick (NomErr BerError) (Bytes × BerObject) :=
  (lookHeader headerFromBer i).bind fun r =>
    (Tick.free (liftRes (r.2.assertTag tag))).bind fun _ =>
      (berReadElementContentAsO D leaf r.1 r.2.tag r.2.length r.2.constructed maxRecursion).bind fun s =>
        .free (.ok (s.1, .mk r.2 s.2))

/-- `der_read_element_content_as`, /repo/src/der/parser.rs:481-548. -/
def derReadElementContentAsO (D : Deps) (leaf : Any → Nat) (i : Bytes) (tag : Nat) (length : Length)
    (constructed : Bool) (maxDepth : Nat) : Tick (NomErr BerError) (Bytes × Content) :=
  (Tick.free (liftRes length.definite?)).bind fun l =>
    if i.length < l then .free (.err (.incomplete (Needed.new l)))
    else if tag = Tag.bitString then
      lookTwo (if constructed then .err (.error (.derConstraintFailed .constructed))
        else derReadContentBitstring i l)
    else
      (lookTwo (liftRes (derCheck i tag l constructed))).bind fun _ =>
        berReadElementContentAsO D leaf i tag length constructed maxDepth

/-- The `Unknown` object built from raw content, /repo/src/der/parser.rs:565-569 and 575-579. -/
def derUnknownO (i : Bytes) (hdr : Header) (maxDepth : Nat) :
    Tick (NomErr BerError) (Bytes × BerObject) :=
  (getObjectContentO maxDepth hdr i).bind fun r =>
    .free (.ok (r.1, .mk hdr (.unknown { header := hdr, data := r.2 })))

/-- `der_read_element_content_recursive`, /repo/src/der/parser.rs:557-583; after the error
`UnknownTag` the content is read again. -/
def derReadElementContentRecursiveO (D : Deps) (leaf : Any → Nat) (i : Bytes) (hdr : Header) (maxDepth : Nat) :
    Tick (NomErr BerError) (Bytes × BerObject) :=
  if hdr.cls ≠ .universal then derUnknownO i hdr maxDepth
  else
    let x := derReadElementContentAsO D leaf i hdr.tag hdr.length hdr.constructed maxDepth
    match x.1 with
    | .ok r => (.ok (r.1, .mk hdr r.2), x.2)
    | .err (.error (.unknownTag _)) =>
      ((derUnknownO i hdr maxDepth).1, x.2 + (derUnknownO i hdr maxDepth).2)
    | .err e => (.err e, x.2)
    | .panic => (.panic, x.2)
    | .diverge => (.diverge, x.2)

/-- `parse_der_recursive`, /repo/src/der/parser.rs:47-54. -/
def parseDerRecursiveO (D : Deps) (leaf : Any → Nat) (maxDepth : Nat) (i : Bytes) :
    Tick (NomErr BerError) (Bytes × BerObject) :=
  (lookHeader headerFromDer i).bind fun r =>
    match r.2.length with
    | .definite l =>
      if maxObjectSize < l then .free (.err (.error .invalidLength))
      else derReadElementContentRecursiveO D leaf r.1 r.2 maxDepth
    | .indefinite => derReadElementContentRecursiveO D leaf r.1 r.2 maxDepth

/-- `parse_der_with_tag`, /repo/src/der/parser.rs:70-82. -/
def parseDerWithTagO (D : Deps) (leaf : Any → Nat) (tag : Nat) (i : Bytes) :
    Tick (NomErr BerError) (Bytes × BerObject) :=
  (lookHeader headerFromDer i).bind fun r =>
    (Tick.free (liftRes (r.2.assertTag tag))).bind fun _ =>
      (derReadElementContentAsO D leaf r.1 r.2.tag r.2.length r.2.constructed maxRecursion).bind fun s =>
        .free (.ok (s.1, .mk r.2 s.2))

end Verif
