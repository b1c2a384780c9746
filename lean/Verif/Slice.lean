import Verif.Multi
/-!
# The parsers on slices that know where they lie

The other files take a `&[u8]` for the list of its octets.  A Rust slice also has a position in
memory; `start_i.offset(i)` (/repo/src/ber/parser.rs:58) subtracts two positions, and every byte
field of a parsed object borrows from the input.  Here a slice is a start and a length in one
fixed piece of memory `mem`, and the functions of `Verif/Asn1.lean`, `Verif/Ber.lean`,
`Verif/Der.lean` and (for the containers) `Verif/Multi.lean` that return slices are written a second time.  Values that are copied out of the
input (numbers, flags, dates) are still computed from the octets, by the functions of those files.
-/
namespace Verif
open Outcome

/-- A `&[u8]`: the `len` octets of the memory that start at the address `off`. -/
structure Slice where
  off : Nat
  len : Nat
deriving DecidableEq, Repr

namespace Slice

/-- The octets of a slice. -/
def read (mem : Bytes) (s : Slice) : Bytes := (mem.drop s.off).take s.len

/-- `<[u8]>::split_at`: panics when there are fewer than `n` octets. -/
def splitAt {ε : Type} (s : Slice) (n : Nat) : Outcome ε (Slice × Slice) :=
  if s.len < n then .panic else .ok (⟨s.off, n⟩, ⟨s.off + n, s.len - n⟩)

/-- `nom::Offset::offset` on slices: `second.as_ptr() - first.as_ptr()` in `usize`. -/
def offset {ε : Type} (first second : Slice) : Outcome ε Nat :=
  if second.off < first.off then .panic else .ok (second.off - first.off)

/-- `nom::bytes::streaming::take(n)`, as `takeStreaming`: the octets taken are the first part of
the slice, the remainder is the second part. -/
def take {E : Type} (n : Nat) (s : Slice) : Outcome (NomErr E) (Slice × Slice) :=
  if s.len < n then .err (.incomplete (Needed.new (n - s.len)))
  else .ok (⟨s.off + n, s.len - n⟩, ⟨s.off, n⟩)

end Slice

/-- `nom::IResult<&[u8], α, E>`. -/
abbrev SRes (E α : Type) := Outcome (NomErr E) (Slice × α)

/-- `asn1_rs::Header`, with the raw tag as the slice it is. -/
structure SHeader where
  cls : Class
  constructed : Bool
  tag : Nat
  length : Length
  rawTag : Option Slice
deriving DecidableEq, Repr

/-- The header with its raw tag read out. -/
def SHeader.read (mem : Bytes) (h : SHeader) : Header :=
  { cls := h.cls, constructed := h.constructed, tag := h.tag, length := h.length,
    rawTag := h.rawTag.map (Slice.read mem) }

/-- `Header::new`: no raw tag. -/
def SHeader.new (cls : Class) (constructed : Bool) (tag : Nat) (length : Length) : SHeader :=
  { cls, constructed, tag, length, rawTag := none }

/-- `asn1_rs::Any`. -/
structure SAny where
  header : SHeader
  data : Slice
deriving DecidableEq, Repr

/-- The `Any` with its slices read out. -/
def SAny.read (mem : Bytes) (a : SAny) : Any := { header := a.header.read mem, data := a.data.read mem }

mutual
/-- `BerObject`, /repo/src/ber/ber.rs:26-29. -/
inductive SObject where
  | mk (header : SHeader) (content : SContent)
/-- `BerObjectContent`, /repo/src/ber/ber.rs:34-105, in the shape of `Content`. -/
inductive SContent where
  | endOfContent
  | boolean (b : Bool)
  | integer (s : Slice)
  | bitString (unused : UInt8) (data : Slice)
  | octetString (s : Slice)
  | null
  | enum (n : Nat)
  | oid (s : Slice)
  | relativeOid (s : Slice)
  | str (k : StrKind) (s : Slice)
  | bmpString (s : Slice)
  | universalString (s : Slice)
  | sequence (l : List SObject)
  | set (l : List SObject)
  | utcTime (t : DateTime)
  | generalizedTime (t : DateTime)
  | optionalNone
  | optionalSome (o : SObject)
  | tagged (cls : Class) (tag : Nat) (o : SObject)
  | unknown (a : SAny)
end

/-- Field `header`. -/
def SObject.header : SObject → SHeader | .mk h _ => h

/-- Field `content`. -/
def SObject.content : SObject → SContent | .mk _ c => c

mutual
/-- The object with its slices read out. -/
def SObject.read (mem : Bytes) : SObject → BerObject
  | .mk h c => .mk (h.read mem) (SContent.read mem c)
/-- The contents with its slices read out. -/
def SContent.read (mem : Bytes) : SContent → Content
  | .endOfContent => .endOfContent
  | .boolean b => .boolean b
  | .integer s => .integer (s.read mem)
  | .bitString u s => .bitString u (s.read mem)
  | .octetString s => .octetString (s.read mem)
  | .null => .null
  | .enum n => .enum n
  | .oid s => .oid (s.read mem)
  | .relativeOid s => .relativeOid (s.read mem)
  | .str k s => .str k (s.read mem)
  | .bmpString s => .bmpString (s.read mem)
  | .universalString s => .universalString (s.read mem)
  | .sequence l => .sequence (SObject.readAll mem l)
  | .set l => .set (SObject.readAll mem l)
  | .utcTime t => .utcTime t
  | .generalizedTime t => .generalizedTime t
  | .optionalNone => .optionalNone
  | .optionalSome o => .optionalSome (SObject.read mem o)
  | .tagged cls tag o => .tagged cls tag (SObject.read mem o)
  | .unknown a => .unknown (a.read mem)
/-- `SObject.read` on a list. -/
def SObject.readAll (mem : Bytes) : List SObject → List BerObject
  | [] => []
  | o :: l => SObject.read mem o :: SObject.readAll mem l
end

/-! ## Headers -/

/-- Identifier octets, as `Ident`. -/
structure SIdent where
  cls : Class
  constructed : Bool
  tag : Nat
  raw : Slice
deriving DecidableEq, Repr

/-- `asn1_rs::parse_identifier`: `let (raw_tag, rem) = i.split_at(byte_count)`. -/
def sParseIdentifier (mem : Bytes) (s : Slice) : SRes BerError SIdent :=
  match s.read mem with
  | [] => .err (.incomplete (Needed.new 1))
  | b :: rest =>
    let cls := classOfBits (b.toNat / 64)
    let constructed := decide (b.toNat / 32 % 2 = 1)
    let c := b.toNat % 32
    (if c = 31 then tagLoop rest 1 0 else .ok (c, 1)) >>? fun r =>
      s.splitAt r.2 >>? fun p => .ok (p.2, { cls, constructed, tag := r.1, raw := p.1 })

/-- Length octets, as `parseLength`. -/
def sParseLength (onIndef : Outcome (NomErr BerError) Length) (mem : Bytes) (s : Slice) :
    SRes BerError Length :=
  match s.read mem with
  | [] => .err (.incomplete (Needed.new 1))
  | b :: _ =>
    s.splitAt 1 >>? fun p =>
      let l := b.toNat % 128
      if b.toNat < 128 then .ok (p.2, .definite l)
      else if l = 0 then onIndef.map fun len => (p.2, len)
      else if l = 127 then .err (.error .invalidLength)
      else
        p.2.take l >>? fun r =>
          match bytesToU64 0 (r.2.read mem) with
          | none => .err (.error .invalidLength)
          | some n => .ok (r.1, .definite n)

/-- `Header::from_ber`, called by /repo/src/ber/parser.rs:116-118. -/
def sHeaderFromBer (mem : Bytes) (s : Slice) : SRes BerError SHeader :=
  sParseIdentifier mem s >>? fun r =>
    sParseLength
      (if r.2.constructed then .ok .indefinite else .err (.error .constructExpected)) mem r.1
    >>? fun t =>
      .ok (t.1, { cls := r.2.cls, constructed := r.2.constructed, tag := r.2.tag,
                  length := t.2, rawTag := some r.2.raw })

/-- `Header::from_der`, called by /repo/src/der/parser.rs:630-632. -/
def sHeaderFromDer (mem : Bytes) (s : Slice) : SRes BerError SHeader :=
  sParseIdentifier mem s >>? fun r =>
    sParseLength (.err (.error (.derConstraintFailed .indefiniteLength))) mem r.1
    >>? fun t =>
      .ok (t.1, { cls := r.2.cls, constructed := r.2.constructed, tag := r.2.tag,
                  length := t.2, rawTag := some r.2.raw })

/-! ## BER -/

/-- Loop of the indefinite-length branch, /repo/src/ber/parser.rs:36-45. -/
def sSkipLoop (mem : Bytes) (skip : SHeader → Slice → SRes BerError Bool) :
    Nat → Slice → SRes BerError Bool
  | 0, _ => .diverge
  | fuel + 1, s =>
    sHeaderFromBer mem s >>? fun r2 =>
      skip r2.2 r2.1 >>? fun r3 =>
        if r3.2 then .ok (r3.1, false) else sSkipLoop mem skip fuel r3.1

/-- `ber_skip_object_content`, /repo/src/ber/parser.rs:14-48. -/
def sSkipContent (mem : Bytes) : Nat → SHeader → Slice → SRes BerError Bool
  | 0, _, _ => .err (.error .berMaxDepth)
  | depth + 1, hdr, s =>
    match hdr.length with
    | .definite l =>
      if l = 0 ∧ hdr.tag = Tag.endOfContent then .ok (s, true)
      else s.take l >>? fun r => .ok (r.1, false)
    | .indefinite =>
      if hdr.constructed then sSkipLoop mem (sSkipContent mem depth) (s.len + 1) s
      else .err (.error .constructExpected)

/-- `ber_get_object_content`, /repo/src/ber/parser.rs:51-68: the length of the contents is the
distance between two positions, and `split_at` cuts there. -/
def sGetObjectContent (mem : Bytes) (depth : Nat) (hdr : SHeader) (s : Slice) :
    SRes BerError Slice :=
  sSkipContent mem depth hdr s >>? fun r =>
    s.offset r.1 >>? fun len =>
      s.splitAt len >>? fun p =>
        if hdr.length = .indefinite then
          if p.1.len < 2 then .panic
          else p.1.splitAt (p.1.len - 2) >>? fun q => .ok (p.2, q.1)
        else .ok (p.2, p.1)

/-- `Any::from_ber` (asn1-rs). -/
def sAnyFromBer (mem : Bytes) (s : Slice) : SRes BerError SAny :=
  sHeaderFromBer mem s >>? fun r =>
    sGetObjectContent mem maxRecursion r.2 r.1 >>? fun t =>
      .ok (t.1, { header := r.2, data := t.2 })

/-- Collection of the members of a SEQUENCE or SET, /repo/src/ber/wrap_any.rs:147-152, 158-163. -/
def sCollectItems (mem : Bytes) (conv : SAny → Res SObject) : Nat → Slice → Res (List SObject)
  | 0, _ => .diverge
  | fuel + 1, s =>
    if s.len = 0 then .ok []
    else
      (sAnyFromBer mem s).mapErr errOfNom >>? fun r =>
        conv r.2 >>? fun o =>
          sCollectItems mem conv fuel r.1 >>? fun os => .ok (o :: os)

/-- Body of `try_berobject_from_any` for universal objects, /repo/src/ber/wrap_any.rs:86-191.
BIT STRING: `Ok(..(data[0], BitStringObject { data: &data[1..] }))`, L89-97. -/
def sUniversalContent (mem : Bytes) (D : Deps) (conv : SAny → Res SObject) (a : SAny) :
    Res SContent :=
  match uKind a.header.tag with
  | .bitString =>
    match a.data.read mem with
    | [] => .err .berValueError
    | b :: _ =>
      if a.header.constructed then .err .unsupported
      else a.data.splitAt 1 >>? fun p => .ok (.bitString b p.2)
  | .bmpString =>
    if a.header.constructed then .err .unsupported
    else if a.data.len % 2 ≠ 0 then .err .unsupported
    else if validUtf16 (utf16Units (a.data.read mem)) then .ok (.bmpString a.data)
    else .err .stringInvalidCharset
  | .boolean => (a.read mem).bool.map .boolean
  | .eoc => .ok .endOfContent
  | .enumerated => (a.read mem).enumerated.map .enum
  | .generalizedTime =>
    (liftExcept (D.generalizedTime a.header.constructed (a.data.read mem))).map .generalizedTime
  | .str k =>
    if a.header.constructed then .err .unsupported
    else if validCharset D k (a.data.read mem) then
      if validUtf8 (a.data.read mem) then .ok (.str k a.data) else .err .stringInvalidCharset
    else .err .stringInvalidCharset
  | .integer => .ok (.integer a.data)
  | .null => .ok .null
  | .octetString => .ok (.octetString a.data)
  | .oid => .ok (.oid a.data)
  | .relativeOid => .ok (.relativeOid a.data)
  | .sequence =>
    (a.header.read mem).assertConstructed >>? fun _ =>
      (sCollectItems mem conv (a.data.len + 1) a.data).map .sequence
  | .set =>
    (a.header.read mem).assertConstructed >>? fun _ =>
      (sCollectItems mem conv (a.data.len + 1) a.data).map .set
  | .utcTime =>
    (liftExcept (D.utcTime a.header.constructed (a.data.read mem))).map .utcTime
  | .universalString =>
    if a.header.constructed then .err .unsupported else .ok (.universalString a.data)
  | .other => .ok (.unknown a)

/-- `try_berobject_from_any`, /repo/src/ber/wrap_any.rs:79-192. -/
def sObjectFromAny (mem : Bytes) (D : Deps) : Nat → SAny → Res SObject
  | 0, _ => .err .berMaxDepth
  | depth + 1, a =>
    if a.header.cls ≠ .universal then .ok (.mk a.header (.unknown a))
    else (sUniversalContent mem D (sObjectFromAny mem D depth) a).map (.mk a.header)

/-- `parse_ber_recursive`, /repo/src/ber/parser.rs:618-620, by /repo/src/ber/wrap_any.rs:24-29. -/
def sParseBerRecursive (mem : Bytes) (D : Deps) (maxDepth : Nat) (s : Slice) :
    SRes BerError SObject :=
  if maxDepth = 0 then .err (.error .berMaxDepth)
  else
    sAnyFromBer mem s >>? fun r =>
      liftRes (sObjectFromAny mem D maxDepth r.2) >>? fun o => .ok (r.1, o)

/-- `parse_ber`, /repo/src/ber/parser.rs:639-641. -/
def sParseBer (mem : Bytes) (D : Deps) (s : Slice) : SRes BerError SObject :=
  sParseBerRecursive mem D maxRecursion s

/-- `ber_read_element_content_as`, /repo/src/ber/parser.rs:144-152 and
/repo/src/ber/wrap_any.rs:58-76. -/
def sReadElementContentAs (mem : Bytes) (D : Deps) (s : Slice) (tag : Nat) (length : Length)
    (constructed : Bool) (maxDepth : Nat) : SRes BerError SContent :=
  let go : SRes BerError SContent :=
    let header := SHeader.new .universal constructed tag length
    sGetObjectContent mem maxDepth header s >>? fun r =>
      liftRes (sObjectFromAny mem D maxDepth { header, data := r.2 }) >>? fun o =>
        .ok (r.1, o.content)
  match length with
  | .definite l =>
    if maxObjectSize < l then .err (.error .invalidLength)
    else if s.len < l then .err (.incomplete (Needed.new l))
    else go
  | .indefinite => go

/-- `parse_ber_with_tag`, /repo/src/ber/parser.rs:233-245. -/
def sParseBerWithTag (mem : Bytes) (D : Deps) (tag : Nat) (s : Slice) : SRes BerError SObject :=
  sHeaderFromBer mem s >>? fun r =>
    liftRes ((r.2.read mem).assertTag tag) >>? fun _ =>
      sReadElementContentAs mem D r.1 r.2.tag r.2.length r.2.constructed maxRecursion >>? fun t =>
        .ok (t.1, .mk r.2 t.2)

/-! ## DER -/

/-- `der_read_content_bitstring`, /repo/src/der/parser.rs:585-607. -/
def sDerReadContentBitstring (mem : Bytes) (s : Slice) (len : Nat) : SRes BerError SContent :=
  match s.read mem with
  | [] => .err (.incomplete (Needed.new 1))
  | ignored :: _ =>
    s.splitAt 1 >>? fun p =>
      if 7 < ignored.toNat then .err (.error (.invalidValue Tag.bitString))
      else if len = 0 then .err (.error .invalidLength)
      else
        p.2.take (len - 1) >>? fun r =>
          if 1 < len then
            match (r.2.read mem)[len - 2]? with
            | none => .panic
            | some last =>
              if unusedBitsZero ignored.toNat last.toNat then .ok (r.1, .bitString ignored r.2)
              else .err (.error (.derConstraintFailed .unusedBitsNotZero))
          else .ok (r.1, .bitString ignored r.2)

/-- `der_read_element_content_as`, /repo/src/der/parser.rs:481-548. -/
def sDerReadElementContentAs (mem : Bytes) (D : Deps) (s : Slice) (tag : Nat) (length : Length)
    (constructed : Bool) (maxDepth : Nat) : SRes BerError SContent :=
  liftRes length.definite? >>? fun l =>
    if s.len < l then .err (.incomplete (Needed.new l))
    else if tag = Tag.bitString then
      if constructed then .err (.error (.derConstraintFailed .constructed))
      else sDerReadContentBitstring mem s l
    else
      liftRes (derCheck (s.read mem) tag l constructed) >>? fun _ =>
        sReadElementContentAs mem D s tag length constructed maxDepth

/-- The `Unknown` object built from raw content, /repo/src/der/parser.rs:565-569 and 575-579. -/
def sDerUnknown (mem : Bytes) (s : Slice) (hdr : SHeader) (maxDepth : Nat) :
    SRes BerError SObject :=
  sGetObjectContent mem maxDepth hdr s >>? fun r =>
    .ok (r.1, .mk hdr (.unknown { header := hdr, data := r.2 }))

/-- `der_read_element_content_recursive`, /repo/src/der/parser.rs:557-583. -/
def sDerReadElementContentRecursive (mem : Bytes) (D : Deps) (s : Slice) (hdr : SHeader)
    (maxDepth : Nat) : SRes BerError SObject :=
  if hdr.cls ≠ .universal then sDerUnknown mem s hdr maxDepth
  else
    match sDerReadElementContentAs mem D s hdr.tag hdr.length hdr.constructed maxDepth with
    | .ok r => .ok (r.1, .mk hdr r.2)
    | .err (.error (.unknownTag _)) => sDerUnknown mem s hdr maxDepth
    | .err e => .err e
    | .panic => .panic
    | .diverge => .diverge

/-- `parse_der_recursive`, /repo/src/der/parser.rs:47-54. -/
def sParseDerRecursive (mem : Bytes) (D : Deps) (maxDepth : Nat) (s : Slice) :
    SRes BerError SObject :=
  sHeaderFromDer mem s >>? fun r =>
    match r.2.length with
    | .definite l =>
      if maxObjectSize < l then .err (.error .invalidLength)
      else sDerReadElementContentRecursive mem D r.1 r.2 maxDepth
    | .indefinite => sDerReadElementContentRecursive mem D r.1 r.2 maxDepth

/-- `parse_der`, /repo/src/der/parser.rs:29-31. -/
def sParseDer (mem : Bytes) (D : Deps) (s : Slice) : SRes BerError SObject :=
  sParseDerRecursive mem D maxRecursion s

/-- `parse_der_with_tag`, /repo/src/der/parser.rs:70-82. -/
def sParseDerWithTag (mem : Bytes) (D : Deps) (tag : Nat) (s : Slice) : SRes BerError SObject :=
  sHeaderFromDer mem s >>? fun r =>
    liftRes ((r.2.read mem).assertTag tag) >>? fun _ =>
      sDerReadElementContentAs mem D r.1 r.2.tag r.2.length r.2.constructed maxRecursion
      >>? fun t => .ok (t.1, .mk r.2 t.2)

/-! ## Containers -/

section
variable {E O : Type} [ParseErr E]

/-- `nom::bytes::complete::take(n)`, as `takeComplete`. -/
def sTakeComplete (mem : Bytes) (n : Nat) (s : Slice) : SRes E Slice :=
  if s.len < n then .err (.error (ParseErr.ofKind (s.read mem) .eof))
  else .ok (⟨s.off + n, s.len - n⟩, ⟨s.off, n⟩)

/-- Header and contents read by `parse_ber_container` (/repo/src/ber/multi.rs:520-526) and
`parse_der_container` (/repo/src/der/multi.rs:521-530). -/
def sFrame (R : Rules) (mem : Bytes) (s : Slice) : SRes E (SHeader × Slice) :=
  match R with
  | .ber =>
    convertErr (sHeaderFromBer mem s) >>? fun r =>
      (match r.2.length with
       | .definite len => sTakeComplete mem len r.1
       | .indefinite => convertErr (sGetObjectContent mem maxRecursion r.2 r.1)) >>? fun t =>
        .ok (t.1, (r.2, t.2))
  | .der =>
    convertErr (sHeaderFromDer mem s) >>? fun r =>
      (match r.2.length with
       | .definite len => sTakeComplete mem len r.1
       | .indefinite =>
         .err (.error (ParseErr.ofBer (.derConstraintFailed .indefiniteLength)))) >>? fun t =>
        .ok (t.1, (r.2, t.2))

/-- `parse_ber_container` (/repo/src/ber/multi.rs:514-530) and `parse_der_container`
(/repo/src/der/multi.rs:515-534): the closure is given the contents and the header, its remainder is
dropped. -/
def sContainer (R : Rules) (mem : Bytes) (f : Slice → SHeader → SRes E O) (s : Slice) : SRes E O :=
  sFrame R mem s >>? fun t => f t.2.2 t.2.1 >>? fun v => .ok (t.1, v.2)

end

end Verif
