import Verif.TestsRepo
import Verif.Schema
/-!
# The examples of the documentation, replayed on the model

The assertions in the documentation comments of /repo/src (also in /repo/README.md).  Like `Verif/TestsRepo.lean`
these are *tests* of the translation, not property theorems.
-/
namespace Verif.Tests
open Verif Outcome

/-- `parse_*_integer`, `parse_*_octetstring` of the two versions. -/
def docInt (R : Rules) : Bytes → IRes BerError BerObject :=
  match R with | .ber => parseBerWithTag D0 Tag.integer | .der => parseDerWithTag D0 Tag.integer
def docOctets (R : Rules) : Bytes → IRes BerError BerObject :=
  match R with | .ber => parseBerWithTag D0 Tag.octetString | .der => parseDerWithTag D0 Tag.octetString
/-- `parse_*_u32`. -/
def docU32 (R : Rules) : Bytes → IRes BerError Nat :=
  match R with | .ber => parseBerUint 4 | .der => parseDerUint 4
/-- `parse_*_content`. -/
def docContent (R : Rules) (tag : Nat) : Bytes → Header → Nat → IRes BerError Content :=
  match R with | .ber => parseBerContent D0 tag | .der => parseDerContent D0 tag

/-- `parse_myobject` of /repo/src/ber/multi.rs:197-206, 421-430: the closure. -/
def docMyObject (R : Rules) (i : Bytes) : IRes BerError (Nat × Bytes) :=
  docU32 R i >>? fun a => docOctets R a.1 >>? fun o =>
    match o.2.asSlice with
    | .ok b => .ok (o.1, (a.2, b))
    | _ => .panic

/-- `Ok((rest, v))`. -/
def sameVal {α : Type} [DecidableEq α] (r : IRes BerError α) (rest : Bytes) (v : α) : Bool :=
  match r with | .ok (rem, v') => decide (rem = rest) && decide (v' = v) | _ => false

/-- `obj.header.tag()` of a success. -/
def tagOf (r : IRes BerError BerObject) : Option Nat := match r with | .ok (_, o) => some o.header.tag | _ => none

-- /repo/src/lib.rs:43-49
example : (docInt .ber [0x02, 0x03, 0x01, 0x00, 0x01, 0x02, 0x03, 0x01, 0x00, 0x00] >>? fun r => docInt .ber r.1).isOk = true := by decide +kernel

-- /repo/src/lib.rs:55-62
example : (sequenceOf .der (docInt .der) [0x30, 0x0a, 0x02, 0x03, 0x01, 0x00, 0x01, 0x02, 0x03, 0x01, 0x00, 0x00]).isOk = true := by decide +kernel

-- /repo/src/lib.rs:86-93
example : (parseDer D0 [0x30, 0x0a, 0x02, 0x03, 0x01, 0x00, 0x01, 0x02, 0x03, 0x01, 0x00, 0x00]).isOk = true := by decide +kernel

-- /repo/src/lib.rs:112-131; /repo/README.md:142-143
example : ((sequenceDefined .ber (pair (docInt .ber) (docInt .ber)) [0x30, 0x0a, 0x02, 0x03, 0x01, 0x00, 0x01, 0x02, 0x03, 0x01, 0x00, 0x00]) >>? fun r =>
    liftRes (r.2.content.asSequence >>? fun l => match l with
      | [a, b] => a.asU64 >>? fun x => b.asU64 >>? fun y => .ok (x, y)
      | _ => .panic)) = .ok (65537, 65536) := by decide +kernel

-- /repo/src/lib.rs:163-169; /repo/README.md:178-181
example : (docInt .ber [0x02, 0x03, 0x01, 0x00, 0x01] >>? fun r => liftRes (r.2.asU64 >>? fun x => r.2.asBigint >>? fun y => .ok (x, y))) =
    .ok (65537, 65537) := by decide +kernel

-- /repo/src/ber/ber.rs:163-167
example : (BerObject.fromIntSlice [0x80]).asI64 = .ok (-128) := by decide +kernel

-- /repo/src/ber/ber.rs:181-185
example : (BerObject.fromIntSlice [0x80]).asI32 = .ok (-128) := by decide +kernel

-- /repo/src/ber/ber.rs:199-203
example : (BerObject.fromIntSlice [1, 0, 1]).asU64 = .ok 0x10001 := by decide +kernel

-- /repo/src/ber/ber.rs:218-222
example : (BerObject.fromObj (.integer [1, 0, 1])).asU32 = .ok 0x10001 := by decide +kernel

-- /repo/src/ber/ber.rs:683-687
example : (docInt .ber [0x02, 0x03, 0x01, 0x00, 0x01] >>? fun r => liftRes r.2.asBigint) = .ok 65537 := by decide +kernel

-- /repo/src/ber/ber.rs:705-709
example : (docInt .ber [0x02, 0x03, 0x01, 0x00, 0x01] >>? fun r => liftRes r.2.asBiguint) = .ok 65537 := by decide +kernel

-- /repo/src/ber/parser.rs:108-113
example : (match headerFromBer [0x02, 0x03, 0x01, 0x00, 0x01] with
    | .ok (_, h) => decide (h.cls = .universal) && decide (h.tag = Tag.integer) && decide (h.length = .definite 3)
    | _ => false) = true := by decide +kernel

-- /repo/src/ber/parser.rs:134-141
example : (headerFromBer [0x02, 0x03, 0x01, 0x00, 0x01] >>? fun r => berReadElementContentAs D0 r.1 r.2.tag r.2.length r.2.constructed 5 >>? fun s =>
    if r.2.tag = Tag.integer then liftRes s.2.asU32 else .panic) = .ok 0x10001 := by decide +kernel

-- /repo/src/ber/parser.rs:171-176, 203-208
example : (headerFromBer [0x02, 0x03, 0x01, 0x00, 0x01] >>? fun r => parseBerContent D0 r.2.tag r.1 r.2 maxRecursion >>? fun _ =>
    .ok r.2.tag) = .ok Tag.integer := by decide +kernel

-- /repo/src/ber/parser.rs:228-231
example : tagOf (parseBerWithTag D0 Tag.integer [0x02, 0x03, 0x01, 0x00, 0x01]) = some Tag.integer := by decide +kernel

-- /repo/src/ber/parser.rs:283-289
example : sameObj (docInt .ber [0x02, 0x03, 0x01, 0x00, 0x01]) [] (.fromObj (.integer [1, 0, 1])) = true := by decide +kernel

-- /repo/src/ber/parser.rs:488-504
example : (parseImplicit 3 (parseBerContent D0 Tag.integer) [0x83, 0x03, 0x01, 0x00, 0x01] >>? fun r =>
    if r.1 = [] then liftRes r.2.asU32 else .panic) = .ok 0x10001 := by decide +kernel

-- /repo/src/ber/parser.rs:531-536
example : tagOf (parseOptional (docInt .ber) [0x02, 0x03, 0x01, 0x00, 0x01]) = some Tag.integer := by decide +kernel

-- /repo/src/ber/parser.rs:536
example : (match parseOptional (docInt .ber) [0x02, 0x03, 0x01, 0x00, 0x01] with | .ok (_, o) => o.asOptional.isOk | _ => false) = true := by decide +kernel

-- /repo/src/ber/parser.rs:612-615
example : tagOf (parseBerRecursive D0 1 [0x02, 0x03, 0x01, 0x00, 0x01]) = some Tag.integer := by decide +kernel

-- /repo/src/ber/parser.rs:633-636
example : tagOf (parseBer D0 [0x02, 0x03, 0x01, 0x00, 0x01]) = some Tag.integer := by decide +kernel

-- /repo/src/der/parser.rs:23-26
example : tagOf (parseDer D0 [0x02, 0x03, 0x01, 0x00, 0x01]) = some Tag.integer := by decide +kernel

-- /repo/src/der/parser.rs:42-45
example : tagOf (parseDerRecursive D0 1 [0x02, 0x03, 0x01, 0x00, 0x01]) = some Tag.integer := by decide +kernel

-- /repo/src/der/parser.rs:65-68
example : tagOf (parseDerWithTag D0 Tag.integer [0x02, 0x03, 0x01, 0x00, 0x01]) = some Tag.integer := by decide +kernel

-- /repo/src/der/parser.rs:118-124
example : sameObj (docInt .der [0x02, 0x03, 0x01, 0x00, 0x01]) [] (.fromObj (.integer [1, 0, 1])) = true := by decide +kernel

-- /repo/src/der/parser.rs:338-356
example : (parseImplicit 3 (parseDerContent D0 Tag.integer) [0x83, 0x03, 0x01, 0x00, 0x01] >>? fun r =>
    if r.1 = [] then liftRes r.2.asU32 else .panic) = .ok 0x10001 := by decide +kernel

-- /repo/src/der/parser.rs:429-434, 462-466
example : (headerFromDer [0x02, 0x03, 0x01, 0x00, 0x01] >>? fun r => parseDerContent D0 r.2.tag r.1 r.2 maxRecursion >>? fun _ =>
    .ok r.2.tag) = .ok Tag.integer := by decide +kernel

-- /repo/src/ber/multi.rs:22-31
example : sameObj (sequenceOf .ber (docInt .ber) [0x30, 0x0a, 0x02, 0x03, 0x01, 0x00, 0x01, 0x02, 0x03, 0x01, 0x00, 0x00]) [] (.fromSeq [.fromIntSlice [1, 0, 1], .fromIntSlice [1, 0, 0]]) = true := by decide +kernel

-- /repo/src/ber/multi.rs:56-66
example : sameObjs (ofV .ber Tag.sequence (docInt .ber) [0x30, 0x0a, 0x02, 0x03, 0x01, 0x00, 0x01, 0x02, 0x03, 0x01, 0x00, 0x00]) [] [.fromIntSlice [1, 0, 1], .fromIntSlice [1, 0, 0]] = true := by decide +kernel

-- /repo/src/ber/multi.rs:102-117
example : sameObj (sequenceDefined .ber (many1 (complete (docInt .ber))) [0x30, 0x0a, 0x02, 0x03, 0x01, 0x00, 0x01, 0x02, 0x03, 0x01, 0x00, 0x00]) [] (.fromSeq [.fromIntSlice [1, 0, 1], .fromIntSlice [1, 0, 0]]) = true := by decide +kernel

-- /repo/src/ber/multi.rs:134-154
example : sameObj (sequenceDefined .ber (pair (docInt .ber) (docOctets .ber)) [0x30, 0x0a, 0x02, 0x03, 0x01, 0x00, 0x01, 0x04, 0x03, 0x01, 0x00, 0x00]) [] (.fromSeq [.fromIntSlice [1, 0, 1], .fromObj (.octetString [1, 0, 0])]) = true := by decide +kernel

-- /repo/src/ber/multi.rs:197-217
example : sameVal (definedG .ber Tag.sequence (fun i _ => docMyObject .ber i) [0x30, 0x0a, 0x02, 0x03, 0x01, 0x00, 0x01, 0x04, 0x03, 0x01, 0x00, 0x00]) [] (0x10001, [1, 0, 0]) = true := by decide +kernel

-- /repo/src/ber/multi.rs:243-256
example : sameObj (setOf .ber (docInt .ber) [0x31, 0x0a, 0x02, 0x03, 0x01, 0x00, 0x01, 0x02, 0x03, 0x01, 0x00, 0x00]) [] (.fromSet [.fromIntSlice [1, 0, 1], .fromIntSlice [1, 0, 0]]) = true := by decide +kernel

-- /repo/src/ber/multi.rs:277-291
example : sameObjs (ofV .ber Tag.set (docInt .ber) [0x31, 0x0a, 0x02, 0x03, 0x01, 0x00, 0x01, 0x02, 0x03, 0x01, 0x00, 0x00]) [] [.fromIntSlice [1, 0, 1], .fromIntSlice [1, 0, 0]] = true := by decide +kernel

-- /repo/src/ber/multi.rs:325-340
example : sameObj (setDefined .ber (many1 (complete (docInt .ber))) [0x31, 0x0a, 0x02, 0x03, 0x01, 0x00, 0x01, 0x02, 0x03, 0x01, 0x00, 0x00]) [] (.fromSet [.fromIntSlice [1, 0, 1], .fromIntSlice [1, 0, 0]]) = true := by decide +kernel

-- /repo/src/ber/multi.rs:357-377
example : sameObj (setDefined .ber (pair (docInt .ber) (docOctets .ber)) [0x31, 0x0a, 0x02, 0x03, 0x01, 0x00, 0x01, 0x04, 0x03, 0x01, 0x00, 0x00]) [] (.fromSet [.fromIntSlice [1, 0, 1], .fromObj (.octetString [1, 0, 0])]) = true := by decide +kernel

-- /repo/src/ber/multi.rs:421-441
example : sameVal (definedG .ber Tag.set (fun i _ => docMyObject .ber i) [0x31, 0x0a, 0x02, 0x03, 0x01, 0x00, 0x01, 0x04, 0x03, 0x01, 0x00, 0x00]) [] (0x10001, [1, 0, 0]) = true := by decide +kernel

-- /repo/src/ber/multi.rs:488-511
example : sameVal (container .ber (fun i h => if h.tag = Tag.sequence then docMyObject .ber i
    else .err (.error .berTypeError)) [0x30, 0x0a, 0x02, 0x03, 0x01, 0x00, 0x01, 0x04, 0x03, 0x01, 0x00, 0x00]) [] (0x10001, [1, 0, 0]) = true := by decide +kernel

-- /repo/src/ber/tagged.rs:21-35
example : (taggedExplicit .ber 2 (docInt .ber) [0xa2, 0x05, 0x02, 0x03, 0x01, 0x00, 0x01] >>? fun r =>
    if r.1 = [] then liftRes (r.2.asTagged >>? fun t => t.2.2.asU32) else .panic) = .ok 0x10001 := by decide +kernel

-- /repo/src/ber/tagged.rs:63-78
example : sameVal (taggedExplicitG .ber 2 (fun c _ => docInt .ber c >>? fun r => liftRes r.2.asU32 >>? fun v => .ok (r.1, v))
    [0xa2, 0x05, 0x02, 0x03, 0x01, 0x00, 0x01]) [] 0x10001 = true := by decide +kernel

-- /repo/src/ber/tagged.rs:124-138, 150-167
example : (taggedImplicit .ber 2 (docContent .ber Tag.integer) [0x82, 0x03, 0x01, 0x00, 0x01] >>? fun r =>
    if r.1 = [] then liftRes r.2.asU32 else .panic) = .ok 0x10001 := by decide +kernel

-- /repo/src/ber/tagged.rs:196-211
example : (taggedImplicitG .ber 2 (docContent .ber Tag.octetString) [0x02, 0x05, 0x68, 0x65, 0x6c, 0x6c, 0x6f] >>? fun r =>
    if r.1 = [] then liftRes r.2.asSlice else .panic) = .ok [0x68, 0x65, 0x6c, 0x6c, 0x6f] := by decide +kernel

-- /repo/src/ber/tagged.rs:222-240
example : sameVal (taggedImplicitG .ber 2 (fun c h d => docContent .ber Tag.integer c h d >>? fun r =>
    liftRes r.2.asU32 >>? fun v => .ok (r.1, v)) [0x82, 0x03, 0x01, 0x00, 0x01]) [] 0x10001 = true := by decide +kernel

-- /repo/src/der/multi.rs:23-32
example : sameObj (sequenceOf .der (docInt .der) [0x30, 0x0a, 0x02, 0x03, 0x01, 0x00, 0x01, 0x02, 0x03, 0x01, 0x00, 0x00]) [] (.fromSeq [.fromIntSlice [1, 0, 1], .fromIntSlice [1, 0, 0]]) = true := by decide +kernel

-- /repo/src/der/multi.rs:57-67
example : sameObjs (ofV .der Tag.sequence (docInt .der) [0x30, 0x0a, 0x02, 0x03, 0x01, 0x00, 0x01, 0x02, 0x03, 0x01, 0x00, 0x00]) [] [.fromIntSlice [1, 0, 1], .fromIntSlice [1, 0, 0]] = true := by decide +kernel

-- /repo/src/der/multi.rs:103-118
example : sameObj (sequenceDefined .der (many1 (complete (docInt .der))) [0x30, 0x0a, 0x02, 0x03, 0x01, 0x00, 0x01, 0x02, 0x03, 0x01, 0x00, 0x00]) [] (.fromSeq [.fromIntSlice [1, 0, 1], .fromIntSlice [1, 0, 0]]) = true := by decide +kernel

-- /repo/src/der/multi.rs:135-155
example : sameObj (sequenceDefined .der (pair (docInt .der) (docOctets .der)) [0x30, 0x0a, 0x02, 0x03, 0x01, 0x00, 0x01, 0x04, 0x03, 0x01, 0x00, 0x00]) [] (.fromSeq [.fromIntSlice [1, 0, 1], .fromObj (.octetString [1, 0, 0])]) = true := by decide +kernel

-- /repo/src/der/multi.rs:198-218
example : sameVal (definedG .der Tag.sequence (fun i _ => docMyObject .der i) [0x30, 0x0a, 0x02, 0x03, 0x01, 0x00, 0x01, 0x04, 0x03, 0x01, 0x00, 0x00]) [] (0x10001, [1, 0, 0]) = true := by decide +kernel

-- /repo/src/der/multi.rs:244-257
example : sameObj (setOf .der (docInt .der) [0x31, 0x0a, 0x02, 0x03, 0x01, 0x00, 0x01, 0x02, 0x03, 0x01, 0x00, 0x00]) [] (.fromSet [.fromIntSlice [1, 0, 1], .fromIntSlice [1, 0, 0]]) = true := by decide +kernel

-- /repo/src/der/multi.rs:278-292
example : sameObjs (ofV .der Tag.set (docInt .der) [0x31, 0x0a, 0x02, 0x03, 0x01, 0x00, 0x01, 0x02, 0x03, 0x01, 0x00, 0x00]) [] [.fromIntSlice [1, 0, 1], .fromIntSlice [1, 0, 0]] = true := by decide +kernel

-- /repo/src/der/multi.rs:326-341
example : sameObj (setDefined .der (many1 (complete (docInt .der))) [0x31, 0x0a, 0x02, 0x03, 0x01, 0x00, 0x01, 0x02, 0x03, 0x01, 0x00, 0x00]) [] (.fromSet [.fromIntSlice [1, 0, 1], .fromIntSlice [1, 0, 0]]) = true := by decide +kernel

-- /repo/src/der/multi.rs:358-378
example : sameObj (setDefined .der (pair (docInt .der) (docOctets .der)) [0x31, 0x0a, 0x02, 0x03, 0x01, 0x00, 0x01, 0x04, 0x03, 0x01, 0x00, 0x00]) [] (.fromSet [.fromIntSlice [1, 0, 1], .fromObj (.octetString [1, 0, 0])]) = true := by decide +kernel

-- /repo/src/der/multi.rs:422-442
example : sameVal (definedG .der Tag.set (fun i _ => docMyObject .der i) [0x31, 0x0a, 0x02, 0x03, 0x01, 0x00, 0x01, 0x04, 0x03, 0x01, 0x00, 0x00]) [] (0x10001, [1, 0, 0]) = true := by decide +kernel

-- /repo/src/der/multi.rs:489-512
example : sameVal (container .der (fun i h => if h.tag = Tag.sequence then docMyObject .der i
    else .err (.error .berTypeError)) [0x30, 0x0a, 0x02, 0x03, 0x01, 0x00, 0x01, 0x04, 0x03, 0x01, 0x00, 0x00]) [] (0x10001, [1, 0, 0]) = true := by decide +kernel

-- /repo/src/der/tagged.rs:22-36
example : (taggedExplicit .der 2 (docInt .der) [0xa2, 0x05, 0x02, 0x03, 0x01, 0x00, 0x01] >>? fun r =>
    if r.1 = [] then liftRes (r.2.asTagged >>? fun t => t.2.2.asU32) else .panic) = .ok 0x10001 := by decide +kernel

-- /repo/src/der/tagged.rs:64-79
example : sameVal (taggedExplicitG .der 2 (fun c _ => docInt .der c >>? fun r => liftRes r.2.asU32 >>? fun v => .ok (r.1, v))
    [0xa2, 0x05, 0x02, 0x03, 0x01, 0x00, 0x01]) [] 0x10001 = true := by decide +kernel

-- /repo/src/der/tagged.rs:126-140, 152-169
example : (taggedImplicit .der 2 (docContent .der Tag.integer) [0x82, 0x03, 0x01, 0x00, 0x01] >>? fun r =>
    if r.1 = [] then liftRes r.2.asU32 else .panic) = .ok 0x10001 := by decide +kernel

-- /repo/src/der/tagged.rs:198-213
example : (taggedImplicitG .der 2 (docContent .der Tag.octetString) [0x02, 0x05, 0x68, 0x65, 0x6c, 0x6c, 0x6f] >>? fun r =>
    if r.1 = [] then liftRes r.2.asSlice else .panic) = .ok [0x68, 0x65, 0x6c, 0x6c, 0x6f] := by decide +kernel

-- /repo/src/der/tagged.rs:224-242
example : sameVal (taggedImplicitG .der 2 (fun c h d => docContent .der Tag.integer c h d >>? fun r =>
    liftRes r.2.asU32 >>? fun v => .ok (r.1, v)) [0x82, 0x03, 0x01, 0x00, 0x01]) [] 0x10001 = true := by decide +kernel

end Verif.Tests
