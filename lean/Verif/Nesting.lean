import Verif.Der
import Verif.Serialize
import Verif.Visit
import Verif.Print
/-!
# Nesting of recursive calls

The functions of the crate that can call themselves, directly or through each other, are
`ber_skip_object_content`, `try_berobject_from_any`, `remove_zeroes`, `ber_encode_object` with
`ber_encode_object_content`, `visit_ber_bfs` (and `visit_ber_bfs_mut`, which follows the tree that the
visitor makes) and `Debug for PrettyBer`.  They are written here again with the number of their
activations that are on the call stack at the same time, at the moment when there are most.  Calls of
other functions are not counted: they add a bounded number of frames to each activation.  Tail calls are
counted as calls (Rust does not promise to eliminate them).  Code derived by the compiler (`Clone`,
`PartialEq`, `Drop`, `Debug` of `BerObject`) is not counted.  `Verif/Props/Nesting.lean` shows that the
results are those of the uncounted functions.
-/
namespace Verif
open Outcome

/-- An outcome with the greatest number of activations of recursive functions open at one time. -/
abbrev Deep (ε α : Type) := Outcome ε α × Nat

namespace Deep
variable {ε ε' α β : Type}

/-- Sequencing: the second step begins after the calls of the first have returned. -/
def bind (x : Deep ε α) (f : α → Deep ε β) : Deep ε β :=
  match x.1 with
  | .ok a => ((f a).1, max x.2 (f a).2)
  | .err e => (.err e, x.2)
  | .panic => (.panic, x.2)
  | .diverge => (.diverge, x.2)

/-- A step without calls of recursive functions. -/
def flat (x : Outcome ε α) : Deep ε α := (x, 0)

/-- An activation of a recursive function with body `x`. -/
def call (x : Deep ε α) : Deep ε α := (x.1, x.2 + 1)

/-- `map_err`. -/
def mapErr (f : ε → ε') (x : Deep ε α) : Deep ε' α := (x.1.mapErr f, x.2)

/-- `map`. -/
def map (f : α → β) (x : Deep ε α) : Deep ε β := (x.1.map f, x.2)

end Deep

/-! ## Parsers -/

/-- Loop of `ber_skip_object_content`, /repo/src/ber/parser.rs:36-45. -/
def skipLoopN (skip : Header → Bytes → Deep (NomErr BerError) (Bytes × Bool)) :
    Nat → Bytes → Deep (NomErr BerError) (Bytes × Bool)
  | 0, _ => .flat .diverge
  | fuel + 1, i =>
    (Deep.flat (headerFromBer i)).bind fun r2 =>
      (skip r2.2 r2.1).bind fun r3 =>
        if r3.2 then .flat (.ok (r3.1, false)) else skipLoopN skip fuel r3.1

/-- `ber_skip_object_content`, /repo/src/ber/parser.rs:14-48; recursive call on L39. -/
def skipContentN : Nat → Header → Bytes → Deep (NomErr BerError) (Bytes × Bool)
  | 0, _, _ => .call (.flat (.err (.error .berMaxDepth)))
  | depth + 1, hdr, i =>
    .call <| match hdr.length with
    | .definite l =>
      .flat (if l = 0 ∧ hdr.tag = Tag.endOfContent then .ok (i, true)
        else takeStreaming l i >>? fun r => .ok (r.1, false))
    | .indefinite =>
      if hdr.constructed then skipLoopN (skipContentN depth) (i.length + 1) i
      else .flat (.err (.error .constructExpected))

/-- `ber_get_object_content`, /repo/src/ber/parser.rs:51-68. -/
def getObjectContentN (depth : Nat) (hdr : Header) (i : Bytes) :
    Deep (NomErr BerError) (Bytes × Bytes) :=
  (skipContentN depth hdr i).bind fun r =>
    let len := i.length - r.1.length
    let content := i.take len
    let rest := i.drop len
    .flat (if hdr.length = .indefinite then
      if content.length < 2 then .panic
      else .ok (rest, content.take (content.length - 2))
    else .ok (rest, content))

/-- `Any::from_ber` (asn1-rs), called by /repo/src/ber/wrap_any.rs:24-34; its own copy of the skipping
function counts like that of the crate. -/
def anyFromBerN (i : Bytes) : Deep (NomErr BerError) (Bytes × Any) :=
  (Deep.flat (headerFromBer i)).bind fun r =>
    (getObjectContentN maxRecursion r.2 r.1).bind fun s =>
      .flat (.ok (s.1, { header := r.2, data := s.2 }))

/-- The collection of the items of a SEQUENCE or SET, /repo/src/ber/wrap_any.rs:147-152, 158-163. -/
def collectItemsN (conv : Any → Deep BerError BerObject) :
    Nat → Bytes → Deep BerError (List BerObject)
  | 0, _ => .flat .diverge
  | fuel + 1, data =>
    match data with
    | [] => .flat (.ok [])
    | _ :: _ =>
      ((anyFromBerN data).mapErr errOfNom).bind fun r =>
        (conv r.2).bind fun o =>
          (collectItemsN conv fuel r.1).bind fun os => .flat (.ok (o :: os))

/-- The `match` on universal tags, /repo/src/ber/wrap_any.rs:86-191; only SEQUENCE and SET convert
other objects. -/
def universalContentN (D : Deps) (conv : Any → Deep BerError BerObject) (a : Any) :
    Deep BerError Content :=
  match uKind a.header.tag with
  | .sequence =>
    (Deep.flat a.header.assertConstructed).bind fun _ =>
      (collectItemsN conv (a.data.length + 1) a.data).map .sequence
  | .set =>
    (Deep.flat a.header.assertConstructed).bind fun _ =>
      (collectItemsN conv (a.data.length + 1) a.data).map .set
  | _ => .flat (universalContent D (fun b => (conv b).1) a)

/-- `try_berobject_from_any`, /repo/src/ber/wrap_any.rs:79-192; recursive calls on L150 and L161. -/
def objectFromAnyN (D : Deps) : Nat → Any → Deep BerError BerObject
  | 0, _ => .call (.flat (.err .berMaxDepth))
  | depth + 1, a =>
    .call <| if a.header.cls ≠ .universal then .flat (.ok (.mk a.header (.unknown a)))
    else (universalContentN D (objectFromAnyN D depth) a).map (.mk a.header)

/-- `parse_ber_recursive`, /repo/src/ber/parser.rs:618-620, /repo/src/ber/wrap_any.rs:24-29. -/
def parseBerRecursiveN (D : Deps) (maxDepth : Nat) (i : Bytes) :
    Deep (NomErr BerError) (Bytes × BerObject) :=
  if maxDepth = 0 then .flat (.err (.error .berMaxDepth))
  else
    (anyFromBerN i).bind fun r =>
      ((objectFromAnyN D maxDepth r.2).mapErr .error).bind fun o => .flat (.ok (r.1, o))

/-- `ber_read_element_content_as`, /repo/src/ber/parser.rs:144-152, /repo/src/ber/wrap_any.rs:58-76. -/
def berReadElementContentAsN (D : Deps) (i : Bytes) (tag : Nat) (length : Length)
    (constructed : Bool) (maxDepth : Nat) : Deep (NomErr BerError) (Bytes × Content) :=
  let go : Deep (NomErr BerError) (Bytes × Content) :=
    let header := Header.new .universal constructed tag length
    (getObjectContentN maxDepth header i).bind fun r =>
      ((objectFromAnyN D maxDepth { header, data := r.2 }).mapErr .error).bind fun o =>
        .flat (.ok (r.1, o.content))
  match length with
  | .definite l =>
    if maxObjectSize < l then .flat (.err (.error .invalidLength))
    else if i.length < l then .flat (.err (.incomplete (Needed.new l)))
    else go
  | .indefinite => go

/-- `parse_ber_with_tag`, /repo/src/ber/parser.rs:233-245. -/
def parseBerWithTagN (D : Deps) (tag : Nat) (i : Bytes) :
    Deep (NomErr BerError) (Bytes × BerObject) :=
  (Deep.flat (headerFromBer i)).bind fun r =>
    (Deep.flat (liftRes (r.2.assertTag tag))).bind fun _ =>
      (berReadElementContentAsN D r.1 r.2.tag r.2.length r.2.constructed maxRecursion).bind fun s =>
        .flat (.ok (s.1, .mk r.2 s.2))

/-- `der_read_element_content_as`, /repo/src/der/parser.rs:481-548. -/
def derReadElementContentAsN (D : Deps) (i : Bytes) (tag : Nat) (length : Length)
    (constructed : Bool) (maxDepth : Nat) : Deep (NomErr BerError) (Bytes × Content) :=
  (Deep.flat (liftRes length.definite?)).bind fun l =>
    if i.length < l then .flat (.err (.incomplete (Needed.new l)))
    else if tag = Tag.bitString then
      .flat (if constructed then .err (.error (.derConstraintFailed .constructed))
        else derReadContentBitstring i l)
    else
      (Deep.flat (liftRes (derCheck i tag l constructed))).bind fun _ =>
        berReadElementContentAsN D i tag length constructed maxDepth

/-- The `Unknown` object built from raw content, /repo/src/der/parser.rs:565-569 and 575-579. -/
def derUnknownN (i : Bytes) (hdr : Header) (maxDepth : Nat) :
    Deep (NomErr BerError) (Bytes × BerObject) :=
  (getObjectContentN maxDepth hdr i).bind fun r =>
    .flat (.ok (r.1, .mk hdr (.unknown { header := hdr, data := r.2 })))

/-- `der_read_element_content_recursive`, /repo/src/der/parser.rs:557-583 (which does not call itself);
after the error `UnknownTag` the content is read again. -/
def derReadElementContentRecursiveN (D : Deps) (i : Bytes) (hdr : Header) (maxDepth : Nat) :
    Deep (NomErr BerError) (Bytes × BerObject) :=
  if hdr.cls ≠ .universal then derUnknownN i hdr maxDepth
  else
    let x := derReadElementContentAsN D i hdr.tag hdr.length hdr.constructed maxDepth
    match x.1 with
    | .ok r => (.ok (r.1, .mk hdr r.2), x.2)
    | .err (.error (.unknownTag _)) =>
      ((derUnknownN i hdr maxDepth).1, max x.2 (derUnknownN i hdr maxDepth).2)
    | .err e => (.err e, x.2)
    | .panic => (.panic, x.2)
    | .diverge => (.diverge, x.2)

/-- `parse_der_recursive`, /repo/src/der/parser.rs:47-54. -/
def parseDerRecursiveN (D : Deps) (maxDepth : Nat) (i : Bytes) :
    Deep (NomErr BerError) (Bytes × BerObject) :=
  (Deep.flat (headerFromDer i)).bind fun r =>
    match r.2.length with
    | .definite l =>
      if maxObjectSize < l then .flat (.err (.error .invalidLength))
      else derReadElementContentRecursiveN D r.1 r.2 maxDepth
    | .indefinite => derReadElementContentRecursiveN D r.1 r.2 maxDepth

/-- `parse_der_with_tag`, /repo/src/der/parser.rs:70-82. -/
def parseDerWithTagN (D : Deps) (tag : Nat) (i : Bytes) :
    Deep (NomErr BerError) (Bytes × BerObject) :=
  (Deep.flat (headerFromDer i)).bind fun r =>
    (Deep.flat (liftRes (r.2.assertTag tag))).bind fun _ =>
      (derReadElementContentAsN D r.1 r.2.tag r.2.length r.2.constructed maxRecursion).bind fun s =>
        .flat (.ok (s.1, .mk r.2 s.2))

/-! ## Integers -/

/-- `remove_zeroes`, /repo/src/ber/integer.rs:7-18; recursive call on L14. -/
def removeZeroesN : Bytes → Bytes × Nat
  | [] => ([], 1)
  | [b] => ([b], 1)
  | b :: c :: rest =>
    if b = 0 then ((removeZeroesN (c :: rest)).1, (removeZeroesN (c :: rest)).2 + 1)
    else (b :: c :: rest, 1)

/-- `decode_array_uint8` / `decode_array_uint4`, /repo/src/ber/integer.rs:41-75. -/
def decodeArrayUintN (n : Nat) (bs : Bytes) : Deep BerError Bytes :=
  if isHighestBitSet bs then .flat (.err .integerNegative)
  else
    let input := removeZeroesN bs
    (if n < input.1.length then .err .integerTooLarge
      else if ¬ input.1.length ≤ n then .panic
      else .ok (List.replicate (n - input.1.length) 0 ++ input.1), input.2)

/-- `decode_array_int8` / `decode_array_int4`, /repo/src/ber/integer.rs:95-121. -/
def decodeArrayIntN (n : Nat) (bs : Bytes) : Deep BerError Bytes :=
  let input := removeZeroesN bs
  (if n < input.1.length then .err .integerTooLarge
    else .ok (List.replicate (n - input.1.length) 0xff ++ input.1), input.2)

/-- `as_i64` / `as_i32` (`n` = 8 / 4) on content, /repo/src/ber/ber.rs:412-423, 439-450. -/
def Content.asSignedIntN (n : Nat) : Content → Deep BerError Int
  | .integer bs =>
    if isHighestBitSet bs then (decodeArrayIntN n bs).map fun a => asSigned (8 * n) (beNat a)
    else (decodeArrayUintN n bs).map fun a => asSigned (8 * n) (beNat a)
  | _ => .flat (.err .berValueError)

/-- `as_u64` on content, /repo/src/ber/ber.rs:466-478. -/
def Content.asU64N : Content → Deep BerError Nat
  | .integer i => (decodeArrayUintN 8 i).map beNat
  | c => .flat c.asU64

/-- `as_u32` on content, /repo/src/ber/ber.rs:495-519. -/
def Content.asU32N : Content → Deep BerError Nat
  | .integer i => (decodeArrayUintN 4 i).map beNat
  | c => .flat c.asU32

/-! ## Serialization -/

mutual
/-- `ber_encode_object_content`, /repo/src/ber/serialize.rs:116-172; recursive calls on L156, L161 and
L168. -/
def encodeContentN (D : Deps) : Content → Deep Empty Bytes
  | .sequence l => .call (encodeListN D l)
  | .set l => .call (encodeListN D l)
  | .optionalSome o => .call (encodeInnerContentN D o)
  | .tagged _ _ o => .call (encodeObjectN D o)
  | c => .call (.flat (encodeContent D c))
/-- `ber_encode_object`, /repo/src/ber/serialize.rs:197-208. -/
def encodeObjectN (D : Deps) : BerObject → Deep Empty Bytes
  | .mk h c =>
    .call <| (encodeContentN D c).bind fun v =>
      .flat (encodeHeader { h with length := .definite v.length } >>? fun vh => .ok (vh ++ v))
/-- `ber_encode_object_content(&obj.content)`, /repo/src/ber/serialize.rs:161. -/
def encodeInnerContentN (D : Deps) : BerObject → Deep Empty Bytes
  | .mk _ c => encodeContentN D c
/-- `ber_encode_sequence`, /repo/src/ber/serialize.rs:70-74. -/
def encodeListN (D : Deps) : List BerObject → Deep Empty Bytes
  | [] => .flat (.ok [])
  | o :: os =>
    (encodeObjectN D o).bind fun a => (encodeListN D os).bind fun b => .flat (.ok (a ++ b))
end

/-! ## Visitor -/

mutual
/-- `visit_ber_bfs`, /repo/src/ber/visit.rs:124-177; recursive calls on L157 and L163.  The callbacks of
the visitor are not counted. -/
def visitObjN {σ : Type} (v : Visitor σ) : BerObject → Nat → σ → σ × Nat
  | .mk h c, depth, s =>
    let s := v.visitBer (.mk h c) depth s
    let r := visitContentN v c depth s
    (r.1, r.2 + 1)
/-- The `match ber.content` of /repo/src/ber/visit.rs:130-176. -/
def visitContentN {σ : Type} (v : Visitor σ) : Content → Nat → σ → σ × Nat
  | .sequence l, depth, s =>
    visitListN v l (depth + 1) (v.callback .sequence (.sequence l) depth s)
  | .set l, depth, s =>
    visitListN v l (depth + 1) (v.callback .set (.set l) depth s)
  | c, depth, s => (v.callback (cbName c) c depth s, 0)
/-- The `for item in l.iter()` loops, /repo/src/ber/visit.rs:156-158, 162-164. -/
def visitListN {σ : Type} (v : Visitor σ) : List BerObject → Nat → σ → σ × Nat
  | [], _, s => (s, 0)
  | o :: os, depth, s =>
    let r := visitObjN v o depth s
    let q := visitListN v os depth r.1
    (q.1, max r.2 q.2)
end

/-! ## Printer -/

mutual
/-- `Debug for PrettyBer`, /repo/src/ber/print.rs:103-197; recursive calls on L168 and L181.  The
derived `Debug` of the object in an `Optional` (L162) is not counted. -/
def fmtObjN (P : PrintDeps) (p : PrettyBer) : BerObject → Bytes × Nat
  | .mk h c => (p.intro P h ++ (fmtContentN P p h c).1, (fmtContentN P p h c).2 + 1)
/-- The `match self.obj.content`, /repo/src/ber/print.rs:136-196. -/
def fmtContentN (P : PrintDeps) (p : PrettyBer) (h : Header) : Content → Bytes × Nat
  | .tagged cls tag o =>
    let r := fmtObjN P (p.nextIndent o) o
    (lit "ContextSpecific [" ++ P.cls cls ++ lit " " ++ decimal tag ++ lit "] {\n" ++ r.1 ++ p.outro ++
      lit "}", r.2)
  | .set v =>
    let ty := if h.tag = Tag.sequence then lit "Sequence" else lit "Set"
    let r := fmtListN P p v
    if p.isRecursive then (ty ++ lit "[\n" ++ r.1 ++ p.outro ++ lit "]", r.2) else (ty, 0)
  | .sequence v =>
    let ty := if h.tag = Tag.sequence then lit "Sequence" else lit "Set"
    let r := fmtListN P p v
    if p.isRecursive then (ty ++ lit "[\n" ++ r.1 ++ p.outro ++ lit "]", r.2) else (ty, 0)
  | c => (fmtContent P p h c, 0)
/-- The loop `for o in v`, /repo/src/ber/print.rs:181-183. -/
def fmtListN (P : PrintDeps) (p : PrettyBer) : List BerObject → Bytes × Nat
  | [] => ([], 0)
  | o :: os =>
    let r := fmtObjN P (p.nextIndent o) o
    let q := fmtListN P p os
    (r.1 ++ q.1, max r.2 q.2)
end

end Verif
