import Verif.Lang
/-!
# Lengths on targets with other machine words

`Header::from_ber` and `Header::from_der` (asn1-rs) read the length octets as a `u64` and convert the
number to `usize`: `usize::try_from(l).or(Err(Err::Error(Error::InvalidLength)))`.  `Verif/Asn1.lean`
is for 64-bit targets, where the conversion cannot fail.  Here the parsers are written a second time
with the function that reads a header as a parameter, so that it can be the one of a target with `w`
bits.  The crate needs `w ≥ 32` (`MAX_OBJECT_SIZE`, /repo/src/ber/parser.rs:11, is 2^32 - 1).
-/
namespace Verif
open Outcome

/-- The conversion of a length to a `usize` of `w` bits, at the end of the header. -/
def narrow (w : Nat) (r : Bytes × Header) : IRes BerError Header :=
  match r.2.length with
  | .definite n => if 2 ^ w ≤ n then .err (.error .invalidLength) else .ok r
  | .indefinite => .ok r

/-- `Header::from_ber` on a target with `w` bits. -/
def headerFromBerOn (w : Nat) (i : Bytes) : IRes BerError Header := headerFromBer i >>? narrow w

/-- `Header::from_der` on a target with `w` bits. -/
def headerFromDerOn (w : Nat) (i : Bytes) : IRes BerError Header := headerFromDer i >>? narrow w

section
variable (hb hd : Bytes → IRes BerError Header)

/-- /repo/src/ber/parser.rs:36-45, as `skipLoop`. -/
def tSkipLoop (skip : Header → Bytes → IRes BerError Bool) : Nat → Bytes → IRes BerError Bool
  | 0, _ => .diverge
  | fuel + 1, i =>
    hb i >>? fun r2 =>
      skip r2.2 r2.1 >>? fun r3 =>
        if r3.2 then .ok (r3.1, false) else tSkipLoop skip fuel r3.1

/-- `ber_skip_object_content`, /repo/src/ber/parser.rs:14-48, as `skipContent`. -/
def tSkipContent : Nat → Header → Bytes → IRes BerError Bool
  | 0, _, _ => .err (.error .berMaxDepth)
  | depth + 1, hdr, i =>
    match hdr.length with
    | .definite l =>
      if l = 0 ∧ hdr.tag = Tag.endOfContent then .ok (i, true)
      else takeStreaming l i >>? fun r => .ok (r.1, false)
    | .indefinite =>
      if hdr.constructed then tSkipLoop hb (tSkipContent depth) (i.length + 1) i
      else .err (.error .constructExpected)

/-- `ber_get_object_content`, /repo/src/ber/parser.rs:51-68, as `getObjectContent`. -/
def tGetObjectContent (depth : Nat) (hdr : Header) (i : Bytes) : IRes BerError Bytes :=
  tSkipContent hb depth hdr i >>? fun r =>
    let len := i.length - r.1.length
    let content := i.take len
    let rest := i.drop len
    if hdr.length = .indefinite then
      if content.length < 2 then .panic
      else .ok (rest, content.take (content.length - 2))
    else .ok (rest, content)

/-- `Any::from_ber` (asn1-rs), as `anyFromBer`. -/
def tAnyFromBer (i : Bytes) : IRes BerError Any :=
  hb i >>? fun r =>
    tGetObjectContent hb maxRecursion r.2 r.1 >>? fun s => .ok (s.1, { header := r.2, data := s.2 })

/-- /repo/src/ber/wrap_any.rs:147-152, 158-163, as `collectItems`. -/
def tCollectItems (conv : Any → Res BerObject) : Nat → Bytes → Res (List BerObject)
  | 0, _ => .diverge
  | fuel + 1, data =>
    match data with
    | [] => .ok []
    | _ :: _ =>
      (tAnyFromBer hb data).mapErr errOfNom >>? fun r =>
        conv r.2 >>? fun o =>
          tCollectItems conv fuel r.1 >>? fun os => .ok (o :: os)

/-- /repo/src/ber/wrap_any.rs:86-191.  Only the arms of SEQUENCE and SET read headers; the others are
those of `universalContent`. -/
def tUniversalContent (D : Deps) (conv : Any → Res BerObject) (a : Any) : Res Content :=
  match uKind a.header.tag with
  | .sequence =>
    a.header.assertConstructed >>? fun _ =>
      (tCollectItems hb conv (a.data.length + 1) a.data).map .sequence
  | .set =>
    a.header.assertConstructed >>? fun _ =>
      (tCollectItems hb conv (a.data.length + 1) a.data).map .set
  | _ => universalContent D conv a

/-- `try_berobject_from_any`, /repo/src/ber/wrap_any.rs:79-192. -/
def tObjectFromAny (D : Deps) : Nat → Any → Res BerObject
  | 0, _ => .err .berMaxDepth
  | depth + 1, a =>
    if a.header.cls ≠ .universal then .ok (.mk a.header (.unknown a))
    else (tUniversalContent hb D (tObjectFromAny D depth) a).map (.mk a.header)

/-- `parse_ber_recursive`, /repo/src/ber/parser.rs:618-620, by /repo/src/ber/wrap_any.rs:24-29. -/
def tParseBerRecursive (D : Deps) (maxDepth : Nat) (i : Bytes) : IRes BerError BerObject :=
  if maxDepth = 0 then .err (.error .berMaxDepth)
  else
    tAnyFromBer hb i >>? fun r =>
      liftRes (tObjectFromAny hb D maxDepth r.2) >>? fun o => .ok (r.1, o)

/-- `ber_read_element_content_as`, /repo/src/ber/parser.rs:144-152 and
/repo/src/ber/wrap_any.rs:58-76. -/
def tReadElementContentAs (D : Deps) (i : Bytes) (tag : Nat) (length : Length)
    (constructed : Bool) (maxDepth : Nat) : IRes BerError Content :=
  let go : IRes BerError Content :=
    let header := Header.new .universal constructed tag length
    tGetObjectContent hb maxDepth header i >>? fun r =>
      liftRes (tObjectFromAny hb D maxDepth { header, data := r.2 }) >>? fun o =>
        .ok (r.1, o.content)
  match length with
  | .definite l =>
    if maxObjectSize < l then .err (.error .invalidLength)
    else if i.length < l then .err (.incomplete (Needed.new l))
    else go
  | .indefinite => go

/-- `parse_ber_with_tag`, /repo/src/ber/parser.rs:233-245. -/
def tParseBerWithTag (D : Deps) (tag : Nat) (i : Bytes) : IRes BerError BerObject :=
  hb i >>? fun r =>
    liftRes (r.2.assertTag tag) >>? fun _ =>
      tReadElementContentAs hb D r.1 r.2.tag r.2.length r.2.constructed maxRecursion >>? fun s =>
        .ok (s.1, .mk r.2 s.2)

/-- `der_read_element_content_as`, /repo/src/der/parser.rs:481-548. -/
def tDerReadElementContentAs (D : Deps) (i : Bytes) (tag : Nat) (length : Length)
    (constructed : Bool) (maxDepth : Nat) : IRes BerError Content :=
  liftRes length.definite? >>? fun l =>
    if i.length < l then .err (.incomplete (Needed.new l))
    else if tag = Tag.bitString then
      if constructed then .err (.error (.derConstraintFailed .constructed))
      else derReadContentBitstring i l
    else
      liftRes (derCheck i tag l constructed) >>? fun _ =>
        tReadElementContentAs hb D i tag length constructed maxDepth

/-- /repo/src/der/parser.rs:565-569 and 575-579. -/
def tDerUnknown (i : Bytes) (hdr : Header) (maxDepth : Nat) : IRes BerError BerObject :=
  tGetObjectContent hb maxDepth hdr i >>? fun r =>
    .ok (r.1, .mk hdr (.unknown { header := hdr, data := r.2 }))

/-- `der_read_element_content_recursive`, /repo/src/der/parser.rs:557-583. -/
def tDerReadElementContentRecursive (D : Deps) (i : Bytes) (hdr : Header) (maxDepth : Nat) :
    IRes BerError BerObject :=
  if hdr.cls ≠ .universal then tDerUnknown hb i hdr maxDepth
  else
    match tDerReadElementContentAs hb D i hdr.tag hdr.length hdr.constructed maxDepth with
    | .ok r => .ok (r.1, .mk hdr r.2)
    | .err (.error (.unknownTag _)) => tDerUnknown hb i hdr maxDepth
    | .err e => .err e
    | .panic => .panic
    | .diverge => .diverge

/-- `parse_der_recursive`, /repo/src/der/parser.rs:47-54. -/
def tParseDerRecursive (D : Deps) (maxDepth : Nat) (i : Bytes) : IRes BerError BerObject :=
  hd i >>? fun r =>
    match r.2.length with
    | .definite l =>
      if maxObjectSize < l then .err (.error .invalidLength)
      else tDerReadElementContentRecursive hb D r.1 r.2 maxDepth
    | .indefinite => tDerReadElementContentRecursive hb D r.1 r.2 maxDepth

/-- `parse_der_with_tag`, /repo/src/der/parser.rs:70-82. -/
def tParseDerWithTag (D : Deps) (tag : Nat) (i : Bytes) : IRes BerError BerObject :=
  hd i >>? fun r =>
    liftRes (r.2.assertTag tag) >>? fun _ =>
      tDerReadElementContentAs hb D r.1 r.2.tag r.2.length r.2.constructed maxRecursion >>? fun s =>
        .ok (s.1, .mk r.2 s.2)

end

/-- `parse_ber_recursive` on a target with `w` bits. -/
def parseBerOn (w : Nat) (D : Deps) (maxDepth : Nat) (i : Bytes) : IRes BerError BerObject :=
  tParseBerRecursive (headerFromBerOn w) D maxDepth i
/-- `parse_ber_with_tag` on a target with `w` bits. -/
def parseBerWithTagOn (w : Nat) (D : Deps) (tag : Nat) (i : Bytes) : IRes BerError BerObject :=
  tParseBerWithTag (headerFromBerOn w) D tag i
/-- `parse_der_recursive` on a target with `w` bits. -/
def parseDerOn (w : Nat) (D : Deps) (maxDepth : Nat) (i : Bytes) : IRes BerError BerObject :=
  tParseDerRecursive (headerFromBerOn w) (headerFromDerOn w) D maxDepth i
/-- `parse_der_with_tag` on a target with `w` bits. -/
def parseDerWithTagOn (w : Nat) (D : Deps) (tag : Nat) (i : Bytes) : IRes BerError BerObject :=
  tParseDerWithTag (headerFromBerOn w) (headerFromDerOn w) D tag i

end Verif
