import Verif.Der
/-!
# Number of header reads

The parsers of `Verif/Ber.lean` and `Verif/Der.lean` again, counting the calls of `Header::from_ber` /
`Header::from_der`.  A header read looks at a bounded number of octets, and everything else the parsers
do is done once for each object and octet of the result, so this is the part of the running time that
depends on nesting.  `Verif/Props/Cost.lean` shows that the results are those of the uncounted
functions.
-/
namespace Verif
open Outcome

/-- An outcome with the number of header reads made. -/
abbrev Tick (ε α : Type) := Outcome ε α × Nat

namespace Tick
variable {ε ε' α β : Type}

/-- Sequencing; the counts add up. -/
def bind (x : Tick ε α) (f : α → Tick ε β) : Tick ε β :=
  match x.1 with
  | .ok a => ((f a).1, x.2 + (f a).2)
  | .err e => (.err e, x.2)
  | .panic => (.panic, x.2)
  | .diverge => (.diverge, x.2)

/-- A step that reads no header. -/
def free (x : Outcome ε α) : Tick ε α := (x, 0)

/-- A step that reads one header. -/
def read (x : Outcome ε α) : Tick ε α := (x, 1)

/-- `map_err`. -/
def mapErr (f : ε → ε') (x : Tick ε α) : Tick ε' α := (x.1.mapErr f, x.2)

/-- `map`. -/
def map (f : α → β) (x : Tick ε α) : Tick ε β := (x.1.map f, x.2)

end Tick

/-- Loop of `ber_skip_object_content`, /repo/src/ber/parser.rs:36-45. -/
def skipLoopT (skip : Header → Bytes → Tick (NomErr BerError) (Bytes × Bool)) :
    Nat → Bytes → Tick (NomErr BerError) (Bytes × Bool)
  | 0, _ => .free .diverge
  | fuel + 1, i =>
    (Tick.read (headerFromBer i)).bind fun r2 =>
      (skip r2.2 r2.1).bind fun r3 =>
        if r3.2 then .free (.ok (r3.1, false)) else skipLoopT skip fuel r3.1

/-- `ber_skip_object_content`, /repo/src/ber/parser.rs:14-48. -/
def skipContentT : Nat → Header → Bytes → Tick (NomErr BerError) (Bytes × Bool)
  | 0, _, _ => .free (.err (.error .berMaxDepth))
  | depth + 1, hdr, i =>
    match hdr.length with
    | .definite l =>
      .free (if l = 0 ∧ hdr.tag = Tag.endOfContent then .ok (i, true)
        else takeStreaming l i >>? fun r => .ok (r.1, false))
    | .indefinite =>
      if hdr.constructed then skipLoopT (skipContentT depth) (i.length + 1) i
      else .free (.err (.error .constructExpected))

/-- `ber_get_object_content`, /repo/src/ber/parser.rs:51-68. -/
def getObjectContentT (depth : Nat) (hdr : Header) (i : Bytes) :
    Tick (NomErr BerError) (Bytes × Bytes) :=
  (skipContentT depth hdr i).bind fun r =>
    let len := i.length - r.1.length
    let content := i.take len
    let rest := i.drop len
    .free (if hdr.length = .indefinite then
      if content.length < 2 then .panic
      else .ok (rest, content.take (content.length - 2))
    else .ok (rest, content))

/-- `Any::from_ber` (asn1-rs), called by /repo/src/ber/wrap_any.rs:24-34. -/
def anyFromBerT (i : Bytes) : Tick (NomErr BerError) (Bytes × Any) :=
  (Tick.read (headerFromBer i)).bind fun r =>
    (getObjectContentT maxRecursion r.2 r.1).bind fun s =>
      .free (.ok (s.1, { header := r.2, data := s.2 }))

/-- The collection of the items of a SEQUENCE or SET, /repo/src/ber/wrap_any.rs:147-152, 158-163. -/
def collectItemsT (conv : Any → Tick BerError BerObject) :
    Nat → Bytes → Tick BerError (List BerObject)
  | 0, _ => .free .diverge
  | fuel + 1, data =>
    match data with
    | [] => .free (.ok [])
    | _ :: _ =>
      ((anyFromBerT data).mapErr errOfNom).bind fun r =>
        (conv r.2).bind fun o =>
          (collectItemsT conv fuel r.1).bind fun os => .free (.ok (o :: os))

/-- The `match` on universal tags, /repo/src/ber/wrap_any.rs:86-191; only SEQUENCE and SET read
headers. -/
def universalContentT (D : Deps) (conv : Any → Tick BerError BerObject) (a : Any) :
    Tick BerError Content :=
  match uKind a.header.tag with
  | .sequence =>
    (Tick.free a.header.assertConstructed).bind fun _ =>
      (collectItemsT conv (a.data.length + 1) a.data).map .sequence
  | .set =>
    (Tick.free a.header.assertConstructed).bind fun _ =>
      (collectItemsT conv (a.data.length + 1) a.data).map .set
  | _ => .free (universalContent D (fun b => (conv b).1) a)

/-- `try_berobject_from_any`, /repo/src/ber/wrap_any.rs:79-192. -/
def objectFromAnyT (D : Deps) : Nat → Any → Tick BerError BerObject
  | 0, _ => .free (.err .berMaxDepth)
  | depth + 1, a =>
    if a.header.cls ≠ .universal then .free (.ok (.mk a.header (.unknown a)))
    else (universalContentT D (objectFromAnyT D depth) a).map (.mk a.header)

/-- `parse_ber_recursive`, /repo/src/ber/parser.rs:618-620, /repo/src/ber/wrap_any.rs:24-29. -/
def parseBerRecursiveT (D : Deps) (maxDepth : Nat) (i : Bytes) :
    Tick (NomErr BerError) (Bytes × BerObject) :=
  if maxDepth = 0 then .free (.err (.error .berMaxDepth))
  else
    (anyFromBerT i).bind fun r =>
      ((objectFromAnyT D maxDepth r.2).mapErr .error).bind fun o => .free (.ok (r.1, o))

/-- `ber_read_element_content_as`, /repo/src/ber/parser.rs:144-152, /repo/src/ber/wrap_any.rs:58-76. -/
def berReadElementContentAsT (D : Deps) (i : Bytes) (tag : Nat) (length : Length)
    (constructed : Bool) (maxDepth : Nat) : Tick (NomErr BerError) (Bytes × Content) :=
  let go : Tick (NomErr BerError) (Bytes × Content) :=
    let header := Header.new .universal constructed tag length
    (getObjectContentT maxDepth header i).bind fun r =>
      ((objectFromAnyT D maxDepth { header, data := r.2 }).mapErr .error).bind fun o =>
        .free (.ok (r.1, o.content))
  match length with
  | .definite l =>
    if maxObjectSize < l then .free (.err (.error .invalidLength))
    else if i.length < l then .free (.err (.incomplete (Needed.new l)))
    else go
  | .indefinite => go

/-- `parse_ber_with_tag`, /repo/src/ber/parser.rs:233-245. -/
def parseBerWithTagT (D : Deps) (tag : Nat) (i : Bytes) :
    Tick (NomErr BerError) (Bytes × BerObject) :=
  (Tick.read (headerFromBer i)).bind fun r =>
    (Tick.free (liftRes (r.2.assertTag tag))).bind fun _ =>
      (berReadElementContentAsT D r.1 r.2.tag r.2.length r.2.constructed maxRecursion).bind fun s =>
        .free (.ok (s.1, .mk r.2 s.2))

/-- `der_read_element_content_as`, /repo/src/der/parser.rs:481-548. -/
def derReadElementContentAsT (D : Deps) (i : Bytes) (tag : Nat) (length : Length)
    (constructed : Bool) (maxDepth : Nat) : Tick (NomErr BerError) (Bytes × Content) :=
  (Tick.free (liftRes length.definite?)).bind fun l =>
    if i.length < l then .free (.err (.incomplete (Needed.new l)))
    else if tag = Tag.bitString then
      .free (if constructed then .err (.error (.derConstraintFailed .constructed))
        else derReadContentBitstring i l)
    else
      (Tick.free (liftRes (derCheck i tag l constructed))).bind fun _ =>
        berReadElementContentAsT D i tag length constructed maxDepth

/-- The `Unknown` object built from raw content, /repo/src/der/parser.rs:565-569 and 575-579. -/
def derUnknownT (i : Bytes) (hdr : Header) (maxDepth : Nat) :
    Tick (NomErr BerError) (Bytes × BerObject) :=
  (getObjectContentT maxDepth hdr i).bind fun r =>
    .free (.ok (r.1, .mk hdr (.unknown { header := hdr, data := r.2 })))

/-- `der_read_element_content_recursive`, /repo/src/der/parser.rs:557-583; after the error
`UnknownTag` the content is read again. -/
def derReadElementContentRecursiveT (D : Deps) (i : Bytes) (hdr : Header) (maxDepth : Nat) :
    Tick (NomErr BerError) (Bytes × BerObject) :=
  if hdr.cls ≠ .universal then derUnknownT i hdr maxDepth
  else
    let x := derReadElementContentAsT D i hdr.tag hdr.length hdr.constructed maxDepth
    match x.1 with
    | .ok r => (.ok (r.1, .mk hdr r.2), x.2)
    | .err (.error (.unknownTag _)) =>
      ((derUnknownT i hdr maxDepth).1, x.2 + (derUnknownT i hdr maxDepth).2)
    | .err e => (.err e, x.2)
    | .panic => (.panic, x.2)
    | .diverge => (.diverge, x.2)

/-- `parse_der_recursive`, /repo/src/der/parser.rs:47-54. -/
def parseDerRecursiveT (D : Deps) (maxDepth : Nat) (i : Bytes) :
    Tick (NomErr BerError) (Bytes × BerObject) :=
  (Tick.read (headerFromDer i)).bind fun r =>
    match r.2.length with
    | .definite l =>
      if maxObjectSize < l then .free (.err (.error .invalidLength))
      else derReadElementContentRecursiveT D r.1 r.2 maxDepth
    | .indefinite => derReadElementContentRecursiveT D r.1 r.2 maxDepth

/-- `parse_der_with_tag`, /repo/src/der/parser.rs:70-82. -/
def parseDerWithTagT (D : Deps) (tag : Nat) (i : Bytes) :
    Tick (NomErr BerError) (Bytes × BerObject) :=
  (Tick.read (headerFromDer i)).bind fun r =>
    (Tick.free (liftRes (r.2.assertTag tag))).bind fun _ =>
      (derReadElementContentAsT D r.1 r.2.tag r.2.length r.2.constructed maxRecursion).bind fun s =>
        .free (.ok (s.1, .mk r.2 s.2))

end Verif
