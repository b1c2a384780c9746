import Verif.Tests
import Verif.Methods
/-!
# The tests of /repo, replayed on the model

Every assertion of /repo/tests and of the unit tests of /repo/src/ber
that is about a result (not about printed text, and not about dates or OID iteration, which belong to
asn1-rs).  These are *tests* of the translation on sample inputs, not property
theorems.  Objects are compared with the model of `PartialEq`, as the tests of /repo do.
-/
namespace Verif.Tests
open Verif Outcome

/-- `Ok((rest, o))` for `assert_eq!`. -/
def sameObj (r : IRes BerError BerObject) (rest : Bytes) (o : BerObject) : Bool :=
  match r with | .ok (rem, o') => decide (rem = rest) && o'.rustEq o | _ => false

/-- The same for a vector of objects. -/
def sameObjs (r : IRes BerError (List BerObject)) (rest : Bytes) (l : List BerObject) : Bool :=
  match r with | .ok (rem, l') => decide (rem = rest) && listRustEq l' l | _ => false

/-- The error of a result. -/
def errOf {ε α : Type} (r : Outcome ε α) : Option ε := match r with | .err e => some e | _ => none

/-- `map(tuple((f, g)), |(a, b)| vec![a, b])`. -/
def pair (f g : Bytes → IRes BerError BerObject) (i : Bytes) : IRes BerError (List BerObject) :=
  f i >>? fun a => g a.1 >>? fun b => .ok (b.1, [a.2, b.2])

/-- nom's `alt` of three parsers: the next one is tried after `Error`. -/
def alt3 (f g k : Bytes → IRes BerError BerObject) (i : Bytes) : IRes BerError BerObject :=
  match f i with
  | .err (.error _) => match g i with
    | .err (.error _) => k i
    | r => r
  | r => r

/-- A serialiser that cannot fail, after a parser. -/
def liftBytes (r : Outcome Empty Bytes) : Outcome (NomErr BerError) Bytes := match r with
  | .ok b => .ok b | .err e => nomatch e | .panic => .panic | .diverge => .diverge

/-- Dates that are always recognised. -/
def DZ : Deps := { D0 with
  utcTime := fun _ _ => .ok ⟨[]⟩
  generalizedTime := fun _ _ => .ok ⟨[]⟩ }

/-- `MyError` of /repo/tests/custom_error.rs. -/
inductive MyError where
  | variant1 | ber (e : BerError) | nom (i : Bytes) (k : ErrorKind)
deriving DecidableEq

instance : ParseErr MyError := ⟨.ber, .nom⟩

-- /repo/tests/ber_parser.rs:14-45, booleans
example : sameObj (parseBerWithTag D0 Tag.boolean [0x01, 0x01, 0x00]) [] (.fromObj (.boolean
    false)) = true := by decide +kernel
example : sameObj (parseBerWithTag D0 Tag.boolean [0x01, 0x01, 0xff]) [] (.fromObj (.boolean true))
    = true := by decide +kernel
example : sameObj (parseBerWithTag D0 Tag.boolean [0x01, 0x01, 0x7f]) [] (.fromObj (.boolean true))
    = true := by decide +kernel
example : (parseBerWithTag D0 Tag.boolean [0x01, 0x02, 0x00, 0x00]).isOk = false := by decide +kernel
example : (parseBerWithTag D0 Tag.boolean [0x01, 0x01]).isOk = false := by decide +kernel
example : errOf (parseBerWithTag D0 Tag.boolean [0x01, 0x02, 0x12, 0x34]) = some (.error
    (.invalidLength)) := by decide +kernel

-- /repo/tests/ber_parser.rs:47-135, SEQUENCE and SET
example : sameObj (parseBer D0 [0x30, 0x80, 0x04, 0x03, 0x56, 0x78, 0x90, 0x00, 0x00, 0x02, 0x01,
    0x01]) [0x02, 0x01, 0x01] (.fromSeq [.fromObj (.octetString [0x56, 0x78, 0x90])]) = true := by
  decide +kernel
example : sameObj (parseBerWithTag D0 Tag.sequence [0x30, 0x80, 0x04, 0x03, 0x56, 0x78, 0x90, 0x00,
    0x00, 0x02, 0x01, 0x01]) [0x02, 0x01, 0x01] (.fromSeq [.fromObj (.octetString [0x56, 0x78,
    0x90])]) = true := by decide +kernel
example : sameObj (parseBer D0 [0x31, 0x80, 0x04, 0x03, 0x56, 0x78, 0x90, 0x00, 0x00]) [] (.fromSet
    [.fromObj (.octetString [0x56, 0x78, 0x90])]) = true := by decide +kernel
example : sameObj (parseBerWithTag D0 Tag.set [0x31, 0x80, 0x04, 0x03, 0x56, 0x78, 0x90, 0x00,
    0x00]) [] (.fromSet [.fromObj (.octetString [0x56, 0x78, 0x90])]) = true := by decide +kernel
example : sameObj (setOf .ber (parseBerWithTag D0 Tag.integer) [0x31, 0x0a, 0x02, 0x03, 0x01, 0x00,
    0x01, 0x02, 0x03, 0x01, 0x00, 0x00]) [] (.fromSet [.fromIntSlice [0x01, 0x00, 0x01],
    .fromIntSlice [0x01, 0x00, 0x00]]) = true := by decide +kernel
example : (setOf .ber (parseBerWithTag D0 Tag.integer) []).isOk = false := by decide +kernel
example : (setOf .ber (parseBerWithTag D0 Tag.integer) [0x31, 0x00]).isOk = true := by decide +kernel
example : sameObjs (ofV .ber Tag.set (parseBerWithTag D0 Tag.integer) [0x31, 0x0a, 0x02, 0x03,
    0x01, 0x00, 0x01, 0x02, 0x03, 0x01, 0x00, 0x00]) [] [.fromIntSlice [0x01, 0x00, 0x01],
    .fromIntSlice [0x01, 0x00, 0x00]] = true := by decide +kernel
example : (ofV .ber Tag.set (parseBerWithTag D0 Tag.integer) []).isOk = false := by decide +kernel
example : sameObjs (ofV .ber Tag.set (parseBerWithTag D0 Tag.integer) [0x31, 0x00]) [] [] = true := by
  decide +kernel

-- /repo/tests/ber_parser.rs:137-243, integers
example : sameObj (parseBerWithTag D0 Tag.integer [0x02, 0x03, 0x01, 0x00, 0x01]) [] (.fromObj
    (.integer [0x01, 0x00, 0x01])) = true := by decide +kernel
example : (parseBerUint 4 [0x02, 0x01, 0x01]) = .ok ([], 1) := by decide +kernel
example : (parseBerUint 4 [0x02, 0x02, 0x00, 0xff]) = .ok ([], 255) := by decide +kernel
example : (parseBerUint 4 [0x02, 0x02, 0x01, 0x23]) = .ok ([], 291) := by decide +kernel
example : (parseBerUint 4 [0x02, 0x04, 0x01, 0x23, 0x45, 0x67]) = .ok ([], 19088743) := by
  decide +kernel
example : (parseBerUint 4 [0x02, 0x05, 0x00, 0xff, 0xff, 0xff, 0xff]) = .ok ([], 4294967295) := by
  decide +kernel
example : errOf (parseBerUint 4 [0x02, 0x04, 0xff, 0xff, 0xff, 0xff]) = some (.error
    (.integerNegative)) := by decide +kernel
example : errOf (parseBerUint 4 [0x02, 0x06, 0xff, 0xff, 0xff, 0xff, 0xff, 0xff]) = some (.error
    (.integerNegative)) := by decide +kernel
example : (parseBerUint 4 [0x02, 0x06, 0x00, 0x00, 0x01, 0x23, 0x45, 0x67]) = .ok ([], 19088743) := by
  decide +kernel
example : errOf (parseBerUint 4 [0x02, 0x05, 0x01, 0x23, 0x45, 0x67, 0x01]) = some (.error
    (.integerTooLarge)) := by decide +kernel
example : errOf (parseBerUint 4 [0x02, 0x09, 0x01, 0x23, 0x45, 0x67, 0x01, 0x23, 0x45, 0x67, 0xab])
    = some (.error (.integerTooLarge)) := by decide +kernel
example : errOf (parseBerUint 4 [0x03, 0x03, 0x01, 0x00, 0x01]) = some (.error (.unexpectedTag
    (some 2) 3)) := by decide +kernel
example : (parseBerUint 8 [0x02, 0x01, 0x01]) = .ok ([], 1) := by decide +kernel
example : (parseBerUint 8 [0x02, 0x02, 0x00, 0xff]) = .ok ([], 255) := by decide +kernel
example : (parseBerUint 8 [0x02, 0x02, 0x01, 0x23]) = .ok ([], 291) := by decide +kernel
example : (parseBerUint 8 [0x02, 0x08, 0x01, 0x23, 0x45, 0x67, 0x01, 0x23, 0x45, 0x67]) = .ok ([],
    81985526925837671) := by decide +kernel
example : (parseBerUint 8 [0x02, 0x09, 0x00, 0xff, 0xff, 0xff, 0xff, 0xff, 0xff, 0xff, 0xff]) = .ok
    ([], 18446744073709551615) := by decide +kernel
example : errOf (parseBerUint 8 [0x02, 0x09, 0x01, 0x23, 0x45, 0x67, 0x01, 0x23, 0x45, 0x67, 0xab])
    = some (.error (.integerTooLarge)) := by decide +kernel
example : errOf (parseBerUint 8 [0x03, 0x03, 0x01, 0x00, 0x01]) = some (.error (.unexpectedTag
    (some 2) 3)) := by decide +kernel
example : (parseBerInt 8 [0x02, 0x01, 0x01]) = .ok ([], 1) := by decide +kernel
example : (parseBerInt 8 [0x02, 0x01, 0xff]) = .ok ([], -1) := by decide +kernel
example : (parseBerInt 8 [0x02, 0x01, 0x80]) = .ok ([], -128) := by decide +kernel
example : (parseBerInt 8 [0x02, 0x02, 0xff, 0x7f]) = .ok ([], -129) := by decide +kernel
example : (parseBerInt 8 [0x02, 0x04, 0xff, 0xff, 0xff, 0xff]) = .ok ([], -1) := by decide +kernel
example : errOf (parseBerInt 8 [0x03, 0x03, 0x01, 0x00, 0x01]) = some (.error (.unexpectedTag (some
    2) 3)) := by decide +kernel
example : ((parseBerWithTag D0 Tag.integer [0x02, 0x01, 0x01]) >>? fun r => liftRes r.2.asBigint) =
    .ok (1) := by decide +kernel
example : ((parseBerWithTag D0 Tag.integer [0x02, 0x02, 0x00, 0xff]) >>? fun r => liftRes
    r.2.asBigint) = .ok (255) := by decide +kernel
example : ((parseBerWithTag D0 Tag.integer [0x02, 0x01, 0xff]) >>? fun r => liftRes r.2.asBigint) =
    .ok (-1) := by decide +kernel
example : ((parseBerWithTag D0 Tag.integer [0x02, 0x01, 0x80]) >>? fun r => liftRes r.2.asBigint) =
    .ok (-128) := by decide +kernel
example : ((parseBerWithTag D0 Tag.integer [0x02, 0x02, 0xff, 0x7f]) >>? fun r => liftRes
    r.2.asBigint) = .ok (-129) := by decide +kernel
example : ((parseBerWithTag D0 Tag.integer [0x02, 0x09, 0x00, 0xff, 0xff, 0xff, 0xff, 0xff, 0xff,
    0xff, 0xff]) >>? fun r => liftRes r.2.asBigint) = .ok (18446744073709551615) := by decide +kernel
example : ((parseBerWithTag D0 Tag.integer [0x02, 0x09, 0x01, 0x23, 0x45, 0x67, 0x01, 0x23, 0x45,
    0x67, 0xab]) >>? fun r => liftRes r.2.asBigint) = .ok (20988294893014443947) := by decide +kernel
example : ((parseBerWithTag D0 Tag.integer [0x02, 0x01, 0x01]) >>? fun r => liftRes r.2.asBiguint)
    = .ok 1 := by decide +kernel
example : ((parseBerWithTag D0 Tag.integer [0x02, 0x02, 0x00, 0xff]) >>? fun r => liftRes
    r.2.asBiguint) = .ok 255 := by decide +kernel
example : ((parseBerWithTag D0 Tag.integer [0x02, 0x01, 0xff]) >>? fun r => liftRes r.2.asBiguint)
    = .err (.error .integerNegative) := by decide +kernel
example : ((parseBerWithTag D0 Tag.integer [0x02, 0x01, 0x80]) >>? fun r => liftRes r.2.asBiguint)
    = .err (.error .integerNegative) := by decide +kernel
example : ((parseBerWithTag D0 Tag.integer [0x02, 0x02, 0xff, 0x7f]) >>? fun r => liftRes
    r.2.asBiguint) = .err (.error .integerNegative) := by decide +kernel
example : ((parseBerWithTag D0 Tag.integer [0x02, 0x09, 0x00, 0xff, 0xff, 0xff, 0xff, 0xff, 0xff,
    0xff, 0xff]) >>? fun r => liftRes r.2.asBiguint) = .ok 18446744073709551615 := by decide +kernel
example : ((parseBerWithTag D0 Tag.integer [0x02, 0x09, 0x01, 0x23, 0x45, 0x67, 0x01, 0x23, 0x45,
    0x67, 0xab]) >>? fun r => liftRes r.2.asBiguint) = .ok 20988294893014443947 := by decide +kernel
example : ((parseBerWithTag D0 Tag.integer [0x03, 0x03, 0x01, 0x00, 0x01]) >>? fun r => liftRes
    r.2.asBiguint) = .err (.error (.unexpectedTag (some 2) 3)) := by decide +kernel

-- /repo/tests/ber_parser.rs:245-264, slices
example : (parseSlice .ber 2 [0x02, 0x01, 0x01]) = .ok ([], [0x01]) := by decide +kernel
example : (parseSlice .ber 2 [0x02, 0x01, 0xff]) = .ok ([], [0xff]) := by decide +kernel
example : (parseSlice .ber 2 [0x02, 0x09, 0x01, 0x23, 0x45, 0x67, 0x01, 0x23, 0x45, 0x67, 0xab]) =
    .ok ([], [0x01, 0x23, 0x45, 0x67, 0x01, 0x23, 0x45, 0x67, 0xab]) := by decide +kernel
example : (parseSlice .ber 2 [0x22, 0x80, 0x02, 0x01, 0x01, 0x00, 0x00]) = .ok ([], [0x02, 0x01,
    0x01]) := by decide +kernel
example : errOf (parseSlice .ber 2 [0x03, 0x03, 0x01, 0x00, 0x01]) = some (.error (.unexpectedTag
    (some 2) 3)) := by decide +kernel

-- /repo/tests/ber_parser.rs:266-340, primitive types
example : sameObj (parseBerWithTag D0 Tag.bitString [0x03, 0x07, 0x04, 0x0a, 0x3b, 0x5f, 0x29,
    0x1c, 0xd0]) [] (.fromObj (.bitString 4 [0x0a, 0x3b, 0x5f, 0x29, 0x1c, 0xd0])) = true := by
  decide +kernel
example : sameObj (parseBerWithTag D0 Tag.bitString [0x03, 0x04, 0x06, 0x6e, 0x5d, 0xe0]) []
    (.fromObj (.bitString 6 [0x6e, 0x5d, 0xe0])) = true := by decide +kernel
example : sameObj (parseBerWithTag D0 Tag.bitString [0x03, 0x81, 0x04, 0x06, 0x6e, 0x5d, 0xc0]) []
    (.fromObj (.bitString 6 [0x6e, 0x5d, 0xc0])) = true := by decide +kernel
example : errOf (parseBerWithTag D0 Tag.bitString [0x23, 0x80, 0x03, 0x03, 0x00, 0x0a, 0x3b, 0x03,
    0x05, 0x04, 0x5f, 0x29, 0x1c, 0xd0, 0x00, 0x00]) = some (.error (.unsupported)) := by
  decide +kernel
example : sameObj (parseBerWithTag D0 Tag.octetString [0x04, 0x05, 0x41, 0x41, 0x41, 0x41, 0x41])
    [] (.fromObj (.octetString [0x41, 0x41, 0x41, 0x41, 0x41])) = true := by decide +kernel
example : sameObj (parseBerWithTag D0 Tag.null [0x05, 0x00]) [] (.fromObj .null) = true := by
  decide +kernel
example : (OidMacro.encodeComponents [1, 2, 840, 113549, 1, 1, 5] false) = .ok [0x2A, 0x86, 0x48,
    0x86, 0xF7, 0x0D, 0x01, 0x01, 0x05] := by decide +kernel
example : sameObj (parseBerWithTag D0 Tag.oid [0x06, 0x09, 0x2A, 0x86, 0x48, 0x86, 0xF7, 0x0D,
    0x01, 0x01, 0x05]) [] (.fromObj (.oid [0x2A, 0x86, 0x48, 0x86, 0xF7, 0x0D, 0x01, 0x01, 0x05]))
    = true := by decide +kernel
example : sameObj (parseBerWithTag D0 Tag.enumerated [0x0a, 0x01, 0x02]) [] (.fromObj (.enum 2)) =
    true := by decide +kernel

-- /repo/tests/ber_parser.rs:342-477, strings
example : ((parseBerWithTag D0 Tag.utf8String [0x0c, 0x04, 0x31, 0x32, 0x33, 0x34]) >>? fun r =>
    liftRes r.2.asStr) = .ok [0x31, 0x32, 0x33, 0x34] := by decide +kernel
example : ((parseBerWithTag D0 Tag.utf8String [0x0c, 0x05, 0x68, 0x65, 0x6c, 0x6c, 0x6f]) >>? fun r
    => liftRes r.2.asStr) = .ok [0x68, 0x65, 0x6c, 0x6c, 0x6f] := by decide +kernel
example : ((parseBerWithTag D0 Tag.utf8String [0x0c, 0x0b, 0x68, 0x65, 0x6c, 0x6c, 0x6f, 0x20,
    0x77, 0x6f, 0x72, 0x6c, 0x64]) >>? fun r => liftRes r.2.asStr) = .ok [0x68, 0x65, 0x6c, 0x6c,
    0x6f, 0x20, 0x77, 0x6f, 0x72, 0x6c, 0x64] := by decide +kernel
example : ((parseBerWithTag D0 Tag.utf8String [0x0c, 0x0b, 0x68, 0x65, 0x6c, 0x6c, 0x6f, 0x5c,
    0x77, 0x6f, 0x72, 0x6c, 0x64]) >>? fun r => liftRes r.2.asStr) = .ok [0x68, 0x65, 0x6c, 0x6c,
    0x6f, 0x5c, 0x77, 0x6f, 0x72, 0x6c, 0x64] := by decide +kernel
example : ((parseBerWithTag D0 Tag.utf8String [0x0c, 0x0b, 0x68, 0x65, 0x6c, 0x6c, 0x6f, 0x2b,
    0x77, 0x6f, 0x72, 0x6c, 0x64]) >>? fun r => liftRes r.2.asStr) = .ok [0x68, 0x65, 0x6c, 0x6c,
    0x6f, 0x2b, 0x77, 0x6f, 0x72, 0x6c, 0x64] := by decide +kernel
example : ((parseBerWithTag D0 Tag.utf8String [0x0c, 0x05, 0x01, 0x02, 0x03, 0x04, 0x05]) >>? fun r
    => liftRes r.2.asStr) = .ok [0x01, 0x02, 0x03, 0x04, 0x05] := by decide +kernel
example : ((parseBerWithTag D0 Tag.utf8String [0x0c, 0x0e, 0xd0, 0xbf, 0xd1, 0x80, 0xd0, 0xb8,
    0xd0, 0xb2, 0xd0, 0xb5, 0xcc, 0x81, 0xd1, 0x82]) >>? fun r => liftRes r.2.asStr) = .ok [0xd0,
    0xbf, 0xd1, 0x80, 0xd0, 0xb8, 0xd0, 0xb2, 0xd0, 0xb5, 0xcc, 0x81, 0xd1, 0x82] := by
  decide +kernel
example : errOf (parseBerWithTag D0 Tag.utf8String [0x0c, 0x04, 0x00, 0x9f, 0x92, 0x96]) = some
    (.error (.stringInvalidCharset)) := by decide +kernel
example : ((parseBerWithTag D0 Tag.numericString [0x12, 0x04, 0x31, 0x32, 0x33, 0x34]) >>? fun r =>
    liftRes r.2.asStr) = .ok [0x31, 0x32, 0x33, 0x34] := by decide +kernel
example : errOf (parseBerWithTag D0 Tag.numericString [0x12, 0x05, 0x68, 0x65, 0x6c, 0x6c, 0x6f]) =
    some (.error (.stringInvalidCharset)) := by decide +kernel
example : errOf (parseBerWithTag D0 Tag.numericString [0x12, 0x05, 0x01, 0x02, 0x03, 0x04, 0x05]) =
    some (.error (.stringInvalidCharset)) := by decide +kernel
example : ((parseBerWithTag D0 Tag.printableString [0x13, 0x04, 0x31, 0x32, 0x33, 0x34]) >>? fun r
    => liftRes r.2.asStr) = .ok [0x31, 0x32, 0x33, 0x34] := by decide +kernel
example : ((parseBerWithTag D0 Tag.printableString [0x13, 0x05, 0x68, 0x65, 0x6c, 0x6c, 0x6f]) >>?
    fun r => liftRes r.2.asStr) = .ok [0x68, 0x65, 0x6c, 0x6c, 0x6f] := by decide +kernel
example : ((parseBerWithTag D0 Tag.printableString [0x13, 0x0b, 0x68, 0x65, 0x6c, 0x6c, 0x6f, 0x20,
    0x77, 0x6f, 0x72, 0x6c, 0x64]) >>? fun r => liftRes r.2.asStr) = .ok [0x68, 0x65, 0x6c, 0x6c,
    0x6f, 0x20, 0x77, 0x6f, 0x72, 0x6c, 0x64] := by decide +kernel
example : errOf (parseBerWithTag D0 Tag.printableString [0x13, 0x0b, 0x68, 0x65, 0x6c, 0x6c, 0x6f,
    0x5c, 0x77, 0x6f, 0x72, 0x6c, 0x64]) = some (.error (.stringInvalidCharset)) := by decide +kernel
example : ((parseBerWithTag D0 Tag.printableString [0x13, 0x0b, 0x68, 0x65, 0x6c, 0x6c, 0x6f, 0x2b,
    0x77, 0x6f, 0x72, 0x6c, 0x64]) >>? fun r => liftRes r.2.asStr) = .ok [0x68, 0x65, 0x6c, 0x6c,
    0x6f, 0x2b, 0x77, 0x6f, 0x72, 0x6c, 0x64] := by decide +kernel
example : errOf (parseBerWithTag D0 Tag.printableString [0x13, 0x05, 0x01, 0x02, 0x03, 0x04, 0x05])
    = some (.error (.stringInvalidCharset)) := by decide +kernel
example : ((parseBerWithTag D0 Tag.ia5String [0x16, 0x04, 0x31, 0x32, 0x33, 0x34]) >>? fun r =>
    liftRes r.2.asStr) = .ok [0x31, 0x32, 0x33, 0x34] := by decide +kernel
example : ((parseBerWithTag D0 Tag.ia5String [0x16, 0x05, 0x68, 0x65, 0x6c, 0x6c, 0x6f]) >>? fun r
    => liftRes r.2.asStr) = .ok [0x68, 0x65, 0x6c, 0x6c, 0x6f] := by decide +kernel
example : ((parseBerWithTag D0 Tag.ia5String [0x16, 0x0b, 0x68, 0x65, 0x6c, 0x6c, 0x6f, 0x20, 0x77,
    0x6f, 0x72, 0x6c, 0x64]) >>? fun r => liftRes r.2.asStr) = .ok [0x68, 0x65, 0x6c, 0x6c, 0x6f,
    0x20, 0x77, 0x6f, 0x72, 0x6c, 0x64] := by decide +kernel
example : ((parseBerWithTag D0 Tag.ia5String [0x16, 0x0b, 0x68, 0x65, 0x6c, 0x6c, 0x6f, 0x5c, 0x77,
    0x6f, 0x72, 0x6c, 0x64]) >>? fun r => liftRes r.2.asStr) = .ok [0x68, 0x65, 0x6c, 0x6c, 0x6f,
    0x5c, 0x77, 0x6f, 0x72, 0x6c, 0x64] := by decide +kernel
example : ((parseBerWithTag D0 Tag.ia5String [0x16, 0x0b, 0x68, 0x65, 0x6c, 0x6c, 0x6f, 0x2b, 0x77,
    0x6f, 0x72, 0x6c, 0x64]) >>? fun r => liftRes r.2.asStr) = .ok [0x68, 0x65, 0x6c, 0x6c, 0x6f,
    0x2b, 0x77, 0x6f, 0x72, 0x6c, 0x64] := by decide +kernel
example : ((parseBerWithTag D0 Tag.ia5String [0x16, 0x05, 0x01, 0x02, 0x03, 0x04, 0x05]) >>? fun r
    => liftRes r.2.asStr) = .ok [0x01, 0x02, 0x03, 0x04, 0x05] := by decide +kernel
example : errOf (parseBerWithTag D0 Tag.ia5String [0x16, 0x0d, 0xd0, 0xbf, 0xd1, 0x80, 0xd0, 0xb8,
    0xd0, 0xb2, 0xd0, 0xb5, 0xcc, 0x81, 0xd1, 0x82]) = some (.error (.stringInvalidCharset)) := by
  decide +kernel
example : ((parseBerWithTag D0 Tag.visibleString [0x1a, 0x04, 0x31, 0x32, 0x33, 0x34]) >>? fun r =>
    liftRes r.2.asStr) = .ok [0x31, 0x32, 0x33, 0x34] := by decide +kernel
example : ((parseBerWithTag D0 Tag.visibleString [0x1a, 0x05, 0x68, 0x65, 0x6c, 0x6c, 0x6f]) >>?
    fun r => liftRes r.2.asStr) = .ok [0x68, 0x65, 0x6c, 0x6c, 0x6f] := by decide +kernel
example : ((parseBerWithTag D0 Tag.visibleString [0x1a, 0x0b, 0x68, 0x65, 0x6c, 0x6c, 0x6f, 0x20,
    0x77, 0x6f, 0x72, 0x6c, 0x64]) >>? fun r => liftRes r.2.asStr) = .ok [0x68, 0x65, 0x6c, 0x6c,
    0x6f, 0x20, 0x77, 0x6f, 0x72, 0x6c, 0x64] := by decide +kernel
example : ((parseBerWithTag D0 Tag.visibleString [0x1a, 0x0b, 0x68, 0x65, 0x6c, 0x6c, 0x6f, 0x5c,
    0x77, 0x6f, 0x72, 0x6c, 0x64]) >>? fun r => liftRes r.2.asStr) = .ok [0x68, 0x65, 0x6c, 0x6c,
    0x6f, 0x5c, 0x77, 0x6f, 0x72, 0x6c, 0x64] := by decide +kernel
example : ((parseBerWithTag D0 Tag.visibleString [0x1a, 0x0b, 0x68, 0x65, 0x6c, 0x6c, 0x6f, 0x2b,
    0x77, 0x6f, 0x72, 0x6c, 0x64]) >>? fun r => liftRes r.2.asStr) = .ok [0x68, 0x65, 0x6c, 0x6c,
    0x6f, 0x2b, 0x77, 0x6f, 0x72, 0x6c, 0x64] := by decide +kernel
example : errOf (parseBerWithTag D0 Tag.visibleString [0x1a, 0x05, 0x01, 0x02, 0x03, 0x04, 0x05]) =
    some (.error (.stringInvalidCharset)) := by decide +kernel
example : sameObj (parseBerWithTag D0 Tag.utf8String [0x0c, 0x0a, 0x53, 0x6f, 0x6d, 0x65, 0x2d,
    0x53, 0x74, 0x61, 0x74, 0x65]) [] (.fromObj (.str .utf8 [0x53, 0x6f, 0x6d, 0x65, 0x2d, 0x53,
    0x74, 0x61, 0x74, 0x65])) = true := by decide +kernel
example : (OidMacro.encodeComponents [8571, 3, 2] true) = .ok [0xc2, 0x7b, 0x03, 0x02] := by
  decide +kernel
example : sameObj (parseBerWithTag D0 Tag.relativeOid [0x0d, 0x04, 0xc2, 0x7b, 0x03, 0x02]) []
    (.fromObj (.relativeOid [0xc2, 0x7b, 0x03, 0x02])) = true := by decide +kernel
example : sameObj (parseBerWithTag D0 Tag.bmpString [0x1e, 0x08, 0x00, 0x55, 0x00, 0x73, 0x00,
    0x65, 0x00, 0x72]) [] (.fromObj (.bmpString [0x00, 0x55, 0x00, 0x73, 0x00, 0x65, 0x00, 0x72]))
    = true := by decide +kernel

-- /repo/tests/ber_parser.rs:479-556, headers, containers, contents
example : (headerFromBer [0x8f, 0x02, 0x12, 0x34]).map (·.2.rawTag) = .ok (some [0x8f]) := by
  decide +kernel
example : (headerFromBer [0x9f, 0x0f, 0x02, 0x12, 0x34]).map (·.2.rawTag) = .ok (some [0x9f, 0x0f]) := by
  decide +kernel
example : (container .ber (fun i _ => if i = [] then .panic else parseBerUint 4 i >>? fun r => .ok
    (i, r.2)) [0x30, 0x80, 0x02, 0x03, 0x01, 0x00, 0x01, 0x00, 0x00]) = .ok ([], 0x10001) := by
  decide +kernel
example : (container (E := BerError) .ber (fun i _ => .ok (i, ())) (((List.replicate 144 [0x24,
    0x80]).flatten ++ [0, 0]))).isOk = false := by decide +kernel
example : ((headerFromBer [0x02, 0x03, 0x01, 0x00, 0x01] >>? fun r => parseBerContent D0 (r.2.tag)
    r.1 r.2 maxRecursion) >>? fun s => if s.1 = [] then liftRes s.2.asU32 else .panic) = .ok
    0x10001 := by decide +kernel
example : (parseBer D0 [0xc0, 0x03, 0x01, 0x00, 0x01]).isOk = true := by decide +kernel

-- /repo/tests/der_parser.rs:22-166, primitive types
example : sameObj (parseDerWithTag D0 Tag.boolean [0x01, 0x01, 0x00]) [] (.fromObj (.boolean
    false)) = true := by decide +kernel
example : sameObj (parseDerWithTag D0 Tag.boolean [0x01, 0x01, 0xff]) [] (.fromObj (.boolean true))
    = true := by decide +kernel
example : errOf (parseDerWithTag D0 Tag.boolean [0x01, 0x01, 0x7f]) = some (.error
    (.derConstraintFailed .invalidBoolean)) := by decide +kernel
example : sameObj (parseDerWithTag D0 Tag.integer [0x02, 0x03, 0x01, 0x00, 0x01]) [] (.fromObj
    (.integer [0x01, 0x00, 0x01])) = true := by decide +kernel
example : (parseDerUint 8 [0x02, 0x03, 0x01, 0x00, 0x01]) = .ok ([], 0x10001) := by decide +kernel
example : (parseDerWithTag D0 Tag.integer [0x04, 0x03, 0x41, 0x41, 0x41]).isOk = false := by
  decide +kernel
example : (parseDerUint 8 [0x04, 0x03, 0x41, 0x41, 0x41]).isOk = false := by decide +kernel
example : (parseDerWithTag D0 Tag.integer [0x02, 0x0b, 0x40, 0x41, 0x02, 0x03, 0x04, 0x05, 0x06,
    0x07, 0x08, 0x09, 0x0a]).isOk = true := by decide +kernel
example : (parseDerUint 8 [0x02, 0x0b, 0x40, 0x41, 0x02, 0x03, 0x04, 0x05, 0x06, 0x07, 0x08, 0x09,
    0x0a]).isOk = false := by decide +kernel
example : sameObj (parseDerWithTag D0 Tag.bitString [0x03, 0x04, 0x06, 0x6e, 0x5d, 0xc0]) []
    (.fromObj (.bitString 6 [0x6e, 0x5d, 0xc0])) = true := by decide +kernel
example : errOf (parseDerWithTag D0 Tag.bitString [0x03, 0x04, 0x06, 0x6e, 0x5d, 0xe0]) = some
    (.error (.derConstraintFailed .unusedBitsNotZero)) := by decide +kernel
example : errOf (parseDerWithTag D0 Tag.bitString [0x23, 0x81, 0x0c, 0x03, 0x03, 0x00, 0x0a, 0x3b,
    0x03, 0x05, 0x04, 0x5f, 0x29, 0x1c, 0xd0]) = some (.error (.derConstraintFailed .constructed)) := by
  decide +kernel
example : errOf (parseDerWithTag D0 Tag.bitString [0x23, 0x80, 0x03, 0x03, 0x00, 0x0a, 0x3b, 0x03,
    0x05, 0x04, 0x5f, 0x29, 0x1c, 0xd0, 0x00, 0x00]) = some (.error (.derConstraintFailed
    .indefiniteLength)) := by decide +kernel
example : sameObj (parseDerWithTag D0 Tag.octetString [0x04, 0x05, 0x41, 0x41, 0x41, 0x41, 0x41])
    [] (.fromObj (.octetString [0x41, 0x41, 0x41, 0x41, 0x41])) = true := by decide +kernel
example : sameObj (parseDerWithTag D0 Tag.null [0x05, 0x00]) [] (.fromObj .null) = true := by
  decide +kernel
example : sameObj (parseDerWithTag D0 Tag.oid [0x06, 0x09, 0x2A, 0x86, 0x48, 0x86, 0xF7, 0x0D,
    0x01, 0x01, 0x05]) [] (.fromObj (.oid [0x2A, 0x86, 0x48, 0x86, 0xF7, 0x0D, 0x01, 0x01, 0x05]))
    = true := by decide +kernel
example : sameObj (parseDerWithTag D0 Tag.enumerated [0x0a, 0x01, 0x02]) [] (.fromObj (.enum 2)) =
    true := by decide +kernel
example : sameObj (parseDerWithTag D0 Tag.utf8String [0x0c, 0x0a, 0x53, 0x6f, 0x6d, 0x65, 0x2d,
    0x53, 0x74, 0x61, 0x74, 0x65]) [] (.fromObj (.str .utf8 [0x53, 0x6f, 0x6d, 0x65, 0x2d, 0x53,
    0x74, 0x61, 0x74, 0x65])) = true := by decide +kernel
example : sameObj (parseDerWithTag D0 Tag.relativeOid [0x0d, 0x04, 0xc2, 0x7b, 0x03, 0x02]) []
    (.fromObj (.relativeOid [0xc2, 0x7b, 0x03, 0x02])) = true := by decide +kernel

-- /repo/tests/der_parser.rs:168-291, SEQUENCE and SET
example : sameObj (parseDerWithTag D0 Tag.sequence [0x30, 0x05, 0x02, 0x03, 0x01, 0x00, 0x01]) []
    (.fromSeq [.fromIntSlice [0x01, 0x00, 0x01]]) = true := by decide +kernel
example : sameObj (parseDerWithTag D0 Tag.set [0x31, 0x05, 0x02, 0x03, 0x01, 0x00, 0x01]) []
    (.fromSet [.fromIntSlice [0x01, 0x00, 0x01]]) = true := by decide +kernel
example : sameObj (sequenceDefined .der (pair (parseDerWithTag D0 Tag.integer) (parseDerWithTag D0
    Tag.integer)) [0x30, 0x0a, 0x02, 0x03, 0x01, 0x00, 0x01, 0x02, 0x03, 0x01, 0x00, 0x00]) []
    (.fromSeq [.fromIntSlice [0x01, 0x00, 0x01], .fromIntSlice [0x01, 0x00, 0x00]]) = true := by
  decide +kernel
example : sameObj (setDefined .der (pair (parseDerWithTag D0 Tag.integer) (parseDerWithTag D0
    Tag.integer)) [0x31, 0x0a, 0x02, 0x03, 0x01, 0x00, 0x01, 0x02, 0x03, 0x01, 0x00, 0x00]) []
    (.fromSet [.fromIntSlice [0x01, 0x00, 0x01], .fromIntSlice [0x01, 0x00, 0x00]]) = true := by
  decide +kernel
example : sameObj (sequenceOf .der (parseDerWithTag D0 Tag.integer) [0x30, 0x0a, 0x02, 0x03, 0x01,
    0x00, 0x01, 0x02, 0x03, 0x01, 0x00, 0x00]) [] (.fromSeq [.fromIntSlice [0x01, 0x00, 0x01],
    .fromIntSlice [0x01, 0x00, 0x00]]) = true := by decide +kernel
example : sameObj (sequenceOf .ber (parseDerWithTag D0 Tag.integer) [0x30, 0x0a, 0x02, 0x03, 0x01,
    0x00, 0x01, 0x02, 0x03, 0x01, 0x00, 0x00]) [] (.fromSeq [.fromIntSlice [0x01, 0x00, 0x01],
    .fromIntSlice [0x01, 0x00, 0x00]]) = true := by decide +kernel
example : errOf (sequenceOf .der (parseDerWithTag D0 Tag.integer) [0x30, 0x07, 0x02, 0x03, 0x01,
    0x00, 0x01, 0x00, 0x00]) = some (.failure (.unexpectedTag (some 2) 0)) := by decide +kernel
example : errOf (ofV .ber Tag.sequence (parseDerWithTag D0 Tag.integer) [0x30, 0x07, 0x02, 0x03,
    0x01, 0x00, 0x01, 0x00, 0x00]) = some (.failure (.unexpectedTag (some 2) 0)) := by decide +kernel
example : errOf (ofV .ber Tag.sequence (parseDerWithTag D0 Tag.integer) [0x30, 0x06, 0x02, 0x03,
    0x01, 0x00, 0x01, 0x02]) = some (.error (.nomError .eof)) := by decide +kernel
example : sameObj (setOf .der (parseDerWithTag D0 Tag.integer) [0x31, 0x0a, 0x02, 0x03, 0x01, 0x00,
    0x01, 0x02, 0x03, 0x01, 0x00, 0x00]) [] (.fromSet [.fromIntSlice [0x01, 0x00, 0x01],
    .fromIntSlice [0x01, 0x00, 0x00]]) = true := by decide +kernel

-- /repo/tests/der_parser.rs:293-341, times (the dates themselves are not modelled)
example : (parseDerWithTag DZ Tag.utcTime [0x17, 0x0b, 0x39, 0x32, 0x30, 0x35, 0x32, 0x31, 0x32,
    0x33, 0x34, 0x32, 0x5A, 0xFF]).isOk = true := by decide +kernel
example : errOf (parseDerWithTag DZ Tag.utcTime [0x17, 0x0a, 0x39, 0x32, 0x30, 0x35, 0x32, 0x31,
    0x32, 0x33, 0x34, 0x32]) = some (.error (.derConstraintFailed .missingTimeZone)) := by
  decide +kernel
example : (parseDerWithTag DZ Tag.generalizedTime [0x18, 0x0D, 0x31, 0x39, 0x39, 0x32, 0x30, 0x35,
    0x32, 0x31, 0x32, 0x33, 0x34, 0x32, 0x5A]).isOk = true := by decide +kernel
example : sameObj (parseDerWithTag D0 Tag.generalString [0x1b, 0x04, 0x63, 0x69, 0x66, 0x73]) []
    (.fromObj (.str .general [0x63, 0x69, 0x66, 0x73])) = true := by decide +kernel

-- /repo/tests/der_parser.rs:343-438, tagged objects
example : sameObj (parseDer D0 [0xa0, 0x03, 0x02, 0x01, 0x02]) [] (.mk (h .contextSpecific true 0 3
    [0xa0]) (.unknown ⟨(h .contextSpecific true 0 3 [0xa0]), [0x02, 0x01, 0x02]⟩)) = true := by
  decide +kernel
example : sameObj (parseExplicitOptional 0 (parseDerWithTag D0 Tag.integer) [0xa0, 0x03, 0x02,
    0x01, 0x02]) [] (.mk (h .contextSpecific true 0 3 [0xa0]) (.optionalSome (.mk (h
    .contextSpecific true 0 3 [0xa0]) (.tagged .contextSpecific 0 (.fromIntSlice [2]))))) = true := by
  decide +kernel
example : sameObj (parseExplicitOptional 1 (parseDerWithTag D0 Tag.integer) [0xa0, 0x03, 0x02,
    0x01, 0x02]) [0xa0, 0x03, 0x02, 0x01, 0x02] (.fromObj .optionalNone) = true := by decide +kernel
example : sameObj (parseImplicit 1 (parseBerContent D0 Tag.ia5String) [0x81, 0x04, 0x70, 0x61,
    0x73, 0x73]) [] (.mk (h .contextSpecific false 1 4 [0x81]) (.str .ia5 [0x70, 0x61, 0x73,
    0x73])) = true := by decide +kernel
example : errOf (parseImplicit 2 (parseBerContent D0 Tag.ia5String) [0x81, 0x04, 0x70, 0x61, 0x73,
    0x73]) = some (.error (.unexpectedTag (some 2) 1)) := by decide +kernel
example : sameObj (parseImplicit 0x52 (parseBerContent D0 Tag.ia5String) [0x5f, 0x52, 0x04, 0x70,
    0x61, 0x73, 0x73]) [] (.mk (h .application false 0x52 4 [0x5f, 0x52]) (.str .ia5 [0x70, 0x61,
    0x73, 0x73])) = true := by decide +kernel
example : errOf (parseImplicit 2 (parseBerContent D0 Tag.ia5String) [0x5f, 0x52, 0x04, 0x70, 0x61,
    0x73, 0x73]) = some (.error (.unexpectedTag (some 2) 0x52)) := by decide +kernel

-- /repo/tests/der_parser.rs:440-471, optional objects
example : sameObj (sequenceDefined .der (pair (parseOptional (parseDerWithTag D0 Tag.enumerated))
    (parseDerWithTag D0 Tag.integer)) [0x30, 0x0a, 0x0a, 0x03, 0x00, 0x00, 0x01, 0x02, 0x03, 0x01,
    0x00, 0x01]) [] (.fromSeq [.fromObj (.optionalSome (.fromObj (.enum 1))), .fromIntSlice [0x01,
    0x00, 0x01]]) = true := by decide +kernel
example : sameObj (sequenceDefined .der (pair (parseOptional (parseDerWithTag D0 Tag.enumerated))
    (parseDerWithTag D0 Tag.integer)) [0x30, 0x05, 0x02, 0x03, 0x01, 0x00, 0x01]) [] (.fromSeq
    [.fromObj .optionalNone, .fromIntSlice [0x01, 0x00, 0x01]]) = true := by decide +kernel

-- /repo/tests/der_parser.rs:473-552, a distinguished name
def dn : Bytes := [0x30, 0x45, 0x31, 0x0b, 0x30, 0x09, 0x06, 0x03, 0x55, 0x04, 0x06, 0x13, 0x02,
    0x46, 0x52, 0x31, 0x13, 0x30, 0x11, 0x06, 0x03, 0x55, 0x04, 0x08, 0x0c, 0x0a, 0x53, 0x6f, 0x6d,
    0x65, 0x2d, 0x53, 0x74, 0x61, 0x74, 0x65, 0x31, 0x21, 0x30, 0x1f, 0x06, 0x03, 0x55, 0x04, 0x0a,
    0x0c, 0x18, 0x49, 0x6e, 0x74, 0x65, 0x72, 0x6e, 0x65, 0x74, 0x20, 0x57, 0x69, 0x64, 0x67, 0x69,
    0x74, 0x73, 0x20, 0x50, 0x74, 0x79, 0x20, 0x4c, 0x74, 0x64]
example : sameObj (parseDer D0 dn) [] (.fromSeq [.fromSet [.fromSeq [.fromObj (.oid [0x55, 0x04, 0x06]), .fromObj (.str .printable [0x46, 0x52])]], .fromSet [.fromSeq [.fromObj (.oid [0x55, 0x04, 0x08]), .fromObj (.str .utf8 [0x53, 0x6f, 0x6d, 0x65, 0x2d, 0x53, 0x74, 0x61, 0x74, 0x65])]],
    .fromSet [.fromSeq [.fromObj (.oid [0x55, 0x04, 0x0a]), .fromObj (.str .utf8 [0x49, 0x6e, 0x74,
    0x65, 0x72, 0x6e, 0x65, 0x74, 0x20, 0x57, 0x69, 0x64, 0x67, 0x69, 0x74, 0x73, 0x20, 0x50, 0x74,
    0x79, 0x20, 0x4c, 0x74, 0x64])]]]) = true := by decide +kernel
example : sameObj (sequenceOf .der (setOf .der (sequenceDefined .der (pair (parseDerWithTag D0 Tag.oid)
    (alt3 (parseDerWithTag D0 Tag.utf8String) (parseDerWithTag D0 Tag.printableString)
      (parseDerWithTag D0 Tag.ia5String))))) dn) [] (.fromSeq [.fromSet [.fromSeq [.fromObj (.oid [0x55, 0x04, 0x06]), .fromObj (.str .printable [0x46, 0x52])]], .fromSet [.fromSeq [.fromObj (.oid [0x55, 0x04, 0x08]), .fromObj (.str .utf8 [0x53, 0x6f, 0x6d, 0x65, 0x2d, 0x53, 0x74, 0x61, 0x74, 0x65])]],
    .fromSet [.fromSeq [.fromObj (.oid [0x55, 0x04, 0x0a]), .fromObj (.str .utf8 [0x49, 0x6e, 0x74,
    0x65, 0x72, 0x6e, 0x65, 0x74, 0x20, 0x57, 0x69, 0x64, 0x67, 0x69, 0x74, 0x73, 0x20, 0x50, 0x74,
    0x79, 0x20, 0x4c, 0x74, 0x64])]]]) = true := by decide +kernel

-- /repo/tests/der_parser.rs:554-628, native integers and slices
example : (parseDerUint 4 [0x02, 0x01, 0x01]) = .ok ([], 1) := by decide +kernel
example : errOf (parseDerUint 4 [0x02, 0x01, 0xff]) = some (.error (.integerNegative)) := by
  decide +kernel
example : (parseDerUint 4 [0x02, 0x02, 0x00, 0xff]) = .ok ([], 255) := by decide +kernel
example : (parseDerUint 4 [0x02, 0x02, 0x01, 0x23]) = .ok ([], 291) := by decide +kernel
example : (parseDerUint 4 [0x02, 0x04, 0x01, 0x23, 0x45, 0x67]) = .ok ([], 19088743) := by
  decide +kernel
example : errOf (parseDerUint 4 [0x02, 0x06, 0x00, 0x00, 0x01, 0x23, 0x45, 0x67]) = some (.error
    (.derConstraintFailed .integerLeadingZeroes)) := by decide +kernel
example : errOf (parseDerUint 4 [0x02, 0x05, 0x01, 0x23, 0x45, 0x67, 0x01]) = some (.error
    (.integerTooLarge)) := by decide +kernel
example : errOf (parseDerUint 4 [0x02, 0x09, 0x01, 0x23, 0x45, 0x67, 0x01, 0x23, 0x45, 0x67, 0xab])
    = some (.error (.integerTooLarge)) := by decide +kernel
example : errOf (parseDerUint 4 [0x03, 0x03, 0x01, 0x00, 0x01]) = some (.error (.unexpectedTag
    (some 2) 3)) := by decide +kernel
example : (parseDerInt 4 [0x02, 0x01, 0x01]) = .ok ([], 1) := by decide +kernel
example : (parseDerInt 4 [0x02, 0x01, 0xff]) = .ok ([], -1) := by decide +kernel
example : (parseDerInt 4 [0x02, 0x01, 0x80]) = .ok ([], -128) := by decide +kernel
example : (parseDerInt 4 [0x02, 0x02, 0xff, 0x7f]) = .ok ([], -129) := by decide +kernel
example : (parseDerInt 4 [0x02, 0x02, 0x00, 0xff]) = .ok ([], 255) := by decide +kernel
example : errOf (parseDerInt 4 [0x02, 0x02, 0xff, 0xf0]) = some (.error (.derConstraintFailed
    .integerLeadingFF)) := by decide +kernel
example : (parseDerUint 8 [0x02, 0x01, 0x01]) = .ok ([], 1) := by decide +kernel
example : (parseDerUint 8 [0x02, 0x02, 0x00, 0xff]) = .ok ([], 255) := by decide +kernel
example : (parseDerUint 8 [0x02, 0x02, 0x01, 0x23]) = .ok ([], 291) := by decide +kernel
example : (parseDerUint 8 [0x02, 0x08, 0x01, 0x23, 0x45, 0x67, 0x01, 0x23, 0x45, 0x67]) = .ok ([],
    81985526925837671) := by decide +kernel
example : (parseDerUint 8 [0x02, 0x09, 0x00, 0xff, 0xff, 0xff, 0xff, 0xff, 0xff, 0xff, 0xff]) = .ok
    ([], 18446744073709551615) := by decide +kernel
example : errOf (parseDerUint 8 [0x02, 0x09, 0x01, 0x23, 0x45, 0x67, 0x01, 0x23, 0x45, 0x67, 0xab])
    = some (.error (.integerTooLarge)) := by decide +kernel
example : errOf (parseDerUint 8 [0x03, 0x03, 0x01, 0x00, 0x01]) = some (.error (.unexpectedTag
    (some 2) 3)) := by decide +kernel
example : (parseSlice .der 2 [0x02, 0x01, 0x01]) = .ok ([], [0x01]) := by decide +kernel
example : (parseSlice .der 2 [0x02, 0x01, 0xff]) = .ok ([], [0xff]) := by decide +kernel
example : (parseSlice .der 2 [0x02, 0x09, 0x01, 0x23, 0x45, 0x67, 0x01, 0x23, 0x45, 0x67, 0xab]) =
    .ok ([], [0x01, 0x23, 0x45, 0x67, 0x01, 0x23, 0x45, 0x67, 0xab]) := by decide +kernel
example : errOf (parseSlice .der 2 [0x22, 0x80, 0x02, 0x01, 0x01, 0x00, 0x00]) = some (.error
    (.derConstraintFailed .indefiniteLength)) := by decide +kernel
example : errOf (parseSlice .der 2 [0x03, 0x03, 0x01, 0x00, 0x01]) = some (.error (.unexpectedTag
    (some 2) 3)) := by decide +kernel

-- /repo/tests/primitive.rs:12-69
example : (berReadElementContentAs D0 [0xff] Tag.boolean (.definite 1) false maxRecursion).map (fun
    r => (r.1, r.2.rustEq (.boolean true))) = .ok ([], true) := by decide +kernel
example : (berReadElementContentAs D0 [0x00] Tag.boolean (.definite 1) false maxRecursion).map (fun
    r => (r.1, r.2.rustEq (.boolean false))) = .ok ([], true) := by decide +kernel
example : (OidMacro.encodeComponents [1, 2, 250, 1, 16, 9] false) = .ok [42, 129, 122, 1, 16, 9] := by
  decide +kernel
example : sameObj (parseDer D0 [0x06, 0x06, 42, 129, 122, 1, 16, 9]) [] (.fromObj (.oid [42, 129,
    122, 1, 16, 9])) = true := by decide +kernel
example : (OidMacro.encodeComponents [250, 1, 16, 9] true) = .ok [129, 122, 1, 16, 9] := by
  decide +kernel
example : sameObj (parseDer D0 [0x0d, 0x05, 129, 122, 1, 16, 9]) [] (.fromObj (.relativeOid [129,
    122, 1, 16, 9])) = true := by decide +kernel
example : sameObj (parseDer D0 [0x0d, 0x04, 0xc2, 0x7b, 0x03, 0x02]) [] (.fromObj (.relativeOid
    [0xc2, 0x7b, 0x03, 0x02])) = true := by decide +kernel

-- /repo/tests/primitive.rs:88-213, unknown tags, cut and invalid headers
example : sameObj (parseBer D0 [0x1d, 0x01, 0x00]) [] (.fromObj (.unknown ⟨Header.new .universal
    false 0x1d (.definite 1), [0]⟩)) = true := by decide +kernel
example : sameObj (parseDer D0 [0x1d, 0x01, 0x00]) [] (.fromObj (.unknown ⟨Header.new .universal
    false 0x1d (.definite 1), [0]⟩)) = true := by decide +kernel
example : sameObj (parseBer D0 [0x80, 0x01, 0x00]) [] (.mk (h .contextSpecific false 0 1 [0x80])
    (.unknown ⟨Header.new .contextSpecific false 0 (.definite 1), [0]⟩)) = true := by decide +kernel
example : sameObj (parseBer D0 [0x9f, 0x22, 0x01, 0x00]) [] (.mk (h .contextSpecific false 0x22 1
    [0x9f, 0x22]) (.unknown ⟨Header.new .contextSpecific false 0x22 (.definite 1), [0]⟩)) = true := by
  decide +kernel
example : sameObj (parseBer D0 [0x9f, 0xa2, 0x22, 0x01, 0x00]) [] (.mk (h .contextSpecific false
    0x1122 1 [0x9f, 0xa2, 0x22]) (.unknown ⟨Header.new .contextSpecific false 0x1122 (.definite 1),
    [0]⟩)) = true := by decide +kernel
example : (parseBer D0 [0x9f, 0xa2, 0xa2]).isOk = false := by decide +kernel
example : (parseBer D0 [0x9f, 0xa2, 0xa2, 0xa2, 0xa2, 0xa2, 0x22, 0x01, 0x00]).isOk = false := by
  decide +kernel
example : errOf (parseBer D0 [0x30]) = some (.incomplete (.size 1)) := by decide +kernel
example : errOf (parseDer D0 [0x30]) = some (.incomplete (.size 1)) := by decide +kernel
example : errOf (parseBer D0 [0x02]) = some (.incomplete (.size 1)) := by decide +kernel
example : errOf (parseBer D0 [0x02, 0x85]) = some (.incomplete (.size 5)) := by decide +kernel
example : errOf (parseBer D0 [0x02, 0x85, 0xff]) = some (.incomplete (.size 4)) := by decide +kernel
example : errOf (parseDer D0 [0x02, 0x02, 0x00]) = some (.incomplete (.size 2)) := by decide +kernel
example : (parseBer D0 [0x02, 0x05]).isOk = false := by decide +kernel
example : (parseBer D0 [0x02, 0xff, 0x00, 0x01, 0x02, 0x03, 0x04, 0x05, 0x06, 0x07, 0x08, 0x09,
    0x0a, 0x0b, 0x0c, 0x0d, 0x0e, 0x0f, 0x10]).isOk = false := by decide +kernel
example : (headerFromBer [0x02, 0xff, 0x00, 0x01, 0x02, 0x03, 0x04, 0x05, 0x06, 0x07, 0x08, 0x09,
    0x0a, 0x0b, 0x0c, 0x0d, 0x0e, 0x0f, 0x10]).isOk = false := by decide +kernel
example : errOf (parseBer D0 [0x02, 0x8a, 0xff, 0xff, 0xff, 0xff, 0xff, 0xff, 0xff, 0xff, 0xff,
    0xff, 0x00]) = some (.error (.invalidLength)) := by decide +kernel
example : errOf (parseBer D0 [0x02, 0xff, 0x00]) = some (.error (.invalidLength)) := by
  decide +kernel

-- /repo/tests/constructed.rs:52-181, SEQUENCE OF, SEQUENCE, SET OF, SET
example : sameObj (sequenceOf .ber (parseBerWithTag D0 Tag.integer) [0x30, 0x00]) [] (.fromSeq [])
    = true := by decide +kernel
example : sameObj (sequenceOf .ber (parseBerWithTag D0 Tag.integer) [0x30, 0x0a, 0x02, 0x03, 0x01,
    0x00, 0x01, 0x02, 0x03, 0x01, 0x00, 0x00]) [] (.fromSeq [.fromIntSlice [0x01, 0x00, 0x01],
    .fromIntSlice [0x01, 0x00, 0x00]]) = true := by decide +kernel
example : errOf (sequenceOf .ber (parseBerWithTag D0 Tag.integer) [0x30, 0x07, 0x02, 0x03, 0x01,
    0x00, 0x01, 0x02, 0x03, 0x01]) = some (.error (.nomError .eof)) := by decide +kernel
example : errOf (sequenceOf .ber (parseBerWithTag D0 Tag.integer) [0x31, 0x0a, 0x02, 0x03, 0x01,
    0x00, 0x01, 0x02, 0x03, 0x01, 0x00, 0x00]) = some (.error (.unexpectedTag (some 16) 17)) := by
  decide +kernel
example : sameObj (sequenceOf .ber (parseBerWithTag D0 Tag.integer) [0x30, 0x80, 0x02, 0x03, 0x01,
    0x00, 0x01, 0x00, 0x00]) [] (.fromSeq [.fromIntSlice [0x01, 0x00, 0x01]]) = true := by
  decide +kernel
example : errOf (sequenceOf .ber (parseBerWithTag D0 Tag.integer) [0x30, 0x80]) = some (.incomplete
    (.size 1)) := by decide +kernel
example : sameObj (sequenceDefined .ber (pair (parseBerWithTag D0 Tag.integer) (parseBerWithTag D0
    Tag.integer)) [0x30, 0x0a, 0x02, 0x03, 0x01, 0x00, 0x01, 0x02, 0x03, 0x01, 0x00, 0x00]) []
    (.fromSeq [.fromIntSlice [0x01, 0x00, 0x01], .fromIntSlice [0x01, 0x00, 0x00]]) = true := by
  decide +kernel
example : errOf (sequenceDefined .ber (pair (parseBerWithTag D0 Tag.integer) (parseBerWithTag D0
    Tag.integer)) [0x30, 0x07, 0x02, 0x03, 0x01, 0x00, 0x01, 0x02, 0x01]) = some (.incomplete
    (.size 1)) := by decide +kernel
example : errOf (sequenceDefined .ber (pair (parseBerWithTag D0 Tag.integer) (parseBerWithTag D0
    Tag.integer)) [0x31, 0x0a, 0x02, 0x03, 0x01, 0x00, 0x01, 0x02, 0x03, 0x01, 0x00, 0x00]) = some
    (.error (.unexpectedTag (some 16) 17)) := by decide +kernel
example : sameObj (sequenceDefined .ber (pair (parseBerWithTag D0 Tag.integer) (parseBerWithTag D0
    Tag.integer)) [0x30, 0x80, 0x02, 0x03, 0x01, 0x00, 0x01, 0x02, 0x03, 0x01, 0x00, 0x00, 0x00,
    0x00]) [] (.fromSeq [.fromIntSlice [0x01, 0x00, 0x01], .fromIntSlice [0x01, 0x00, 0x00]]) =
    true := by decide +kernel
example : sameObj (setOf .ber (parseBerWithTag D0 Tag.integer) [0x31, 0x00]) [] (.fromSet []) =
    true := by decide +kernel
example : sameObj (setOf .ber (parseBerWithTag D0 Tag.integer) [0x31, 0x0a, 0x02, 0x03, 0x01, 0x00,
    0x01, 0x02, 0x03, 0x01, 0x00, 0x00]) [] (.fromSet [.fromIntSlice [0x01, 0x00, 0x01],
    .fromIntSlice [0x01, 0x00, 0x00]]) = true := by decide +kernel
example : errOf (setOf .ber (parseBerWithTag D0 Tag.integer) [0x31, 0x07, 0x02, 0x03, 0x01, 0x00,
    0x01, 0x02, 0x03, 0x01]) = some (.error (.nomError .eof)) := by decide +kernel
example : errOf (setOf .ber (parseBerWithTag D0 Tag.integer) [0x30, 0x0a, 0x02, 0x03, 0x01, 0x00,
    0x01, 0x02, 0x03, 0x01, 0x00, 0x00]) = some (.error (.unexpectedTag (some 17) 16)) := by
  decide +kernel
example : sameObj (setOf .ber (parseBerWithTag D0 Tag.integer) [0x31, 0x80, 0x02, 0x03, 0x01, 0x00,
    0x01, 0x00, 0x00]) [] (.fromSet [.fromIntSlice [0x01, 0x00, 0x01]]) = true := by decide +kernel
example : errOf (setOf .ber (parseBerWithTag D0 Tag.integer) [0x31, 0x80]) = some (.incomplete
    (.size 1)) := by decide +kernel
example : sameObj (setDefined .ber (pair (parseBerWithTag D0 Tag.integer) (parseBerWithTag D0
    Tag.integer)) [0x31, 0x0a, 0x02, 0x03, 0x01, 0x00, 0x01, 0x02, 0x03, 0x01, 0x00, 0x00]) []
    (.fromSet [.fromIntSlice [0x01, 0x00, 0x01], .fromIntSlice [0x01, 0x00, 0x00]]) = true := by
  decide +kernel
example : errOf (setDefined .ber (pair (parseBerWithTag D0 Tag.integer) (parseBerWithTag D0
    Tag.integer)) [0x31, 0x07, 0x02, 0x03, 0x01, 0x00, 0x01, 0x02, 0x01]) = some (.incomplete
    (.size 1)) := by decide +kernel
example : errOf (setDefined .ber (pair (parseBerWithTag D0 Tag.integer) (parseBerWithTag D0
    Tag.integer)) [0x30, 0x0a, 0x02, 0x03, 0x01, 0x00, 0x01, 0x02, 0x03, 0x01, 0x00, 0x00]) = some
    (.error (.unexpectedTag (some 17) 16)) := by decide +kernel
example : sameObj (setDefined .ber (pair (parseBerWithTag D0 Tag.integer) (parseBerWithTag D0
    Tag.integer)) [0x31, 0x80, 0x02, 0x03, 0x01, 0x00, 0x01, 0x02, 0x03, 0x01, 0x00, 0x00, 0x00,
    0x00]) [] (.fromSet [.fromIntSlice [0x01, 0x00, 0x01], .fromIntSlice [0x01, 0x00, 0x00]]) =
    true := by decide +kernel
example : ((parseBerWithTag D0 Tag.sequence [0x30, 0x00]) >>? fun r => liftRes
    (r.2.asSequence)).map List.length = .ok 0 := by decide +kernel

-- /repo/tests/constructed.rs:183-308, structures
example : sameObjs (definedG .der Tag.sequence (fun i _ => (pair (parseBerWithTag D0 Tag.integer)
    (parseBerWithTag D0 Tag.integer)) i) [0x30, 0x0a, 0x02, 0x03, 0x01, 0x00, 0x01, 0x02, 0x03,
    0x01, 0x00, 0x00]) [] [.fromIntSlice [0x01, 0x00, 0x01], .fromIntSlice [0x01, 0x00, 0x00]] =
    true := by decide +kernel
example : sameObjs (definedG .der Tag.sequence (fun i _ => (pair (parseBerWithTag D0 Tag.integer)
    (parseBerWithTag D0 Tag.integer)) i) [0x30, 0x0c, 0x02, 0x03, 0x01, 0x00, 0x01, 0x02, 0x03,
    0x01, 0x00, 0x00, 0xff, 0xff]) [] [.fromIntSlice [0x01, 0x00, 0x01], .fromIntSlice [0x01, 0x00,
    0x00]] = true := by decide +kernel
example : errOf (definedG .der Tag.sequence (fun i _ => allConsuming (pair (parseBerWithTag D0
    Tag.integer) (parseBerWithTag D0 Tag.integer)) i) [0x30, 0x0c, 0x02, 0x03, 0x01, 0x00, 0x01,
    0x02, 0x03, 0x01, 0x00, 0x00, 0xff, 0xff]) = some (.error (.nomError .eof)) := by decide +kernel
example : sameObjs (container .der (fun i hdr => if hdr.tag ≠ Tag.sequence then .err (.error
    .invalidTag) else allConsuming (pair (parseBerWithTag D0 Tag.integer) (parseBerWithTag D0
    Tag.integer)) i) [0x30, 0x0a, 0x02, 0x03, 0x01, 0x00, 0x01, 0x02, 0x03, 0x01, 0x00, 0x00]) []
    [.fromIntSlice [0x01, 0x00, 0x01], .fromIntSlice [0x01, 0x00, 0x00]] = true := by decide +kernel
example : errOf (container .der (fun i hdr => if hdr.tag ≠ Tag.set then .err (.error .invalidTag)
    else allConsuming (pair (parseBerWithTag D0 Tag.integer) (parseBerWithTag D0 Tag.integer)) i)
    [0x30, 0x0a, 0x02, 0x03, 0x01, 0x00, 0x01, 0x02, 0x03, 0x01, 0x00, 0x00]) = some (.error
    (.invalidTag)) := by decide +kernel
def dn2 : Bytes := [0x30, 0x45, 0x31, 0x0b, 0x30, 0x09, 0x06, 0x03, 0x55, 0x04, 0x06, 0x13, 0x02,
    0x46, 0x52, 0x31, 0x13, 0x30, 0x11, 0x06, 0x03, 0x55, 0x04, 0x08, 0x0c, 0x0a, 0x53, 0x6f, 0x6d,
    0x65, 0x2d, 0x53, 0x74, 0x61, 0x74, 0x65, 0x31, 0x21, 0x30, 0x1f, 0x06, 0x03, 0x55, 0x04, 0x0a,
    0x16, 0x18, 0x49, 0x6e, 0x74, 0x65, 0x72, 0x6e, 0x65, 0x74, 0x20, 0x57, 0x69, 0x64, 0x67, 0x69,
    0x74, 0x73, 0x20, 0x50, 0x74, 0x79, 0x20, 0x4c, 0x74, 0x64]
example : ((definedG (E := BerError) .der Tag.sequence (fun i _ => many0 (complete (definedG .der
    Tag.set fun i _ =>
      definedG .der Tag.sequence (fun i _ => pair (parseBerWithTag D0 Tag.oid)
        (alt3 (parseBerWithTag D0 Tag.utf8String) (parseBerWithTag D0 Tag.printableString)
          (parseBerWithTag D0 Tag.ia5String)) i) i)) (i.length + 1) i) dn2).map fun r => (r.1,
    r.2.map fun l => l.map fun o => errOf o.asStr == none || o.content.tag == 6))
    = .ok ([], [[true, true], [true, true], [true, true]]) := by decide +kernel

-- /repo/tests/constructed.rs:310-426, tagged objects
example : (taggedExplicitG .ber 2 (fun content _ => parseBerWithTag D0 Tag.integer content >>? fun
    r => liftRes r.2.asU32 >>? fun v => .ok (r.1, v)) [0xa2, 0x05, 0x02, 0x03, 0x01, 0x00, 0x01]) =
    .ok ([], 0x10001) := by decide +kernel
example : (taggedExplicitG .ber 2 (fun content _ => parseBerWithTag D0 Tag.integer content >>? fun
    r => liftRes r.2.asU32 >>? fun v => .ok (r.1, v)) [0xa2, 0x80, 0x02, 0x03, 0x01, 0x00, 0x01,
    0x00, 0x00]) = .ok ([], 0x10001) := by decide +kernel
example : errOf (taggedExplicitG .ber 2 (fun content _ => parseBerWithTag D0 Tag.integer content
    >>? fun r => liftRes r.2.asU32 >>? fun v => .ok (r.1, v)) [0xa3, 0x05, 0x02, 0x03, 0x01, 0x00,
    0x01]) = some (.error (.unexpectedTag (some 2) 3)) := by decide +kernel
example : errOf (taggedExplicitG .ber 2 (fun content _ => parseBerWithTag D0 Tag.integer content
    >>? fun r => liftRes r.2.asU32 >>? fun v => .ok (r.1, v)) [0x22, 0x05, 0x02, 0x03, 0x01, 0x00,
    0x01]) = some (.error (.unexpectedClass none .universal)) := by decide +kernel
example : errOf (taggedExplicitG .ber 2 (fun content _ => parseBerWithTag D0 Tag.integer content
    >>? fun r => liftRes r.2.asU32 >>? fun v => .ok (r.1, v)) [0x82, 0x05, 0x02, 0x03, 0x01, 0x00,
    0x01]) = some (.error (.constructExpected)) := by decide +kernel
example : (taggedImplicitG .ber 2 (fun content hdr depth => parseBerContent D0 Tag.integer content
    hdr depth >>? fun r => liftRes r.2.asU32 >>? fun v => .ok (r.1, v)) [0x82, 0x03, 0x01, 0x00,
    0x01]) = .ok ([], 0x10001) := by decide +kernel
example : errOf (taggedImplicitG .ber 2 (fun content hdr depth => parseBerContent D0 Tag.integer
    content hdr depth >>? fun r => liftRes r.2.asU32 >>? fun v => .ok (r.1, v)) [0x83, 0x03, 0x01,
    0x00, 0x01]) = some (.error (.unexpectedTag (some 2) 3)) := by decide +kernel
example : (taggedExplicit .der 2 (parseDerWithTag D0 Tag.integer) [0xa2, 0x05, 0x02, 0x03, 0x01,
    0x00, 0x01] >>? fun r => liftRes (r.2.asTagged >>? fun t => t.2.2.asU32)) = .ok 0x10001 := by
  decide +kernel
example : errOf (taggedExplicit .der 3 (parseDerWithTag D0 Tag.integer) [0xa2, 0x05, 0x02, 0x03,
    0x01, 0x00, 0x01]) = some (.error (.unexpectedTag (some 3) 2)) := by decide +kernel
example : errOf (taggedExplicit .der 2 (parseDerWithTag D0 Tag.boolean) [0xa2, 0x05, 0x02, 0x03,
    0x01, 0x00, 0x01]) = some (.error (.unexpectedTag (some 1) 2)) := by decide +kernel
example : (taggedImplicit .der 2 (parseDerContent D0 Tag.integer) [0x82, 0x03, 0x01, 0x00, 0x01]
    >>? fun r => liftRes r.2.asU32) = .ok 0x10001 := by decide +kernel
example : errOf (taggedImplicit .der 3 (parseDerContent D0 Tag.integer) [0x82, 0x03, 0x01, 0x00,
    0x01]) = some (.error (.unexpectedTag (some 3) 2)) := by decide +kernel
example : (container .der (fun i hdr => if hdr.cls ≠ .application then .err (.error
    (.unexpectedClass none hdr.cls)) else if hdr.tag ≠ 2 then .err (.error .invalidTag) else
    parseBerWithTag D0 Tag.integer i >>? fun r => liftRes r.2.asU32 >>? fun v => .ok (r.1, v))
    [0x62, 0x05, 0x02, 0x03, 0x01, 0x00, 0x01]) = .ok ([], 0x10001) := by decide +kernel

-- /repo/tests/der_constructed.rs
example : (taggedExplicitG .der 2 (fun content _ => parseDerWithTag D0 Tag.integer content >>? fun
    r => liftRes r.2.asU32 >>? fun v => .ok (r.1, v)) [0xa2, 0x05, 0x02, 0x03, 0x01, 0x00, 0x01]) =
    .ok ([], 0x10001) := by decide +kernel
example : errOf (taggedExplicitG .der 2 (fun content _ => parseDerWithTag D0 Tag.integer content
    >>? fun r => liftRes r.2.asU32 >>? fun v => .ok (r.1, v)) [0xa2, 0x80, 0x02, 0x03, 0x01, 0x00,
    0x01, 0x00, 0x00]) = some (.error (.derConstraintFailed .indefiniteLength)) := by decide +kernel
example : errOf (taggedExplicitG .der 2 (fun content _ => parseDerWithTag D0 Tag.integer content
    >>? fun r => liftRes r.2.asU32 >>? fun v => .ok (r.1, v)) [0xa3, 0x05, 0x02, 0x03, 0x01, 0x00,
    0x01]) = some (.error (.unexpectedTag (some 2) 3)) := by decide +kernel
example : errOf (taggedExplicitG .der 2 (fun content _ => parseDerWithTag D0 Tag.integer content
    >>? fun r => liftRes r.2.asU32 >>? fun v => .ok (r.1, v)) [0x22, 0x05, 0x02, 0x03, 0x01, 0x00,
    0x01]) = some (.error (.unexpectedClass none .universal)) := by decide +kernel
example : errOf (taggedExplicitG .der 2 (fun content _ => parseDerWithTag D0 Tag.integer content
    >>? fun r => liftRes r.2.asU32 >>? fun v => .ok (r.1, v)) [0x82, 0x05, 0x02, 0x03, 0x01, 0x00,
    0x01]) = some (.error (.constructExpected)) := by decide +kernel
example : (taggedImplicitG .der 2 (fun content hdr depth => parseDerContent D0 Tag.integer content
    hdr depth >>? fun r => liftRes r.2.asU32 >>? fun v => .ok (r.1, v)) [0x82, 0x03, 0x01, 0x00,
    0x01]) = .ok ([], 0x10001) := by decide +kernel
example : errOf (taggedImplicitG .der 2 (fun content hdr depth => parseDerContent D0 Tag.integer
    content hdr depth >>? fun r => liftRes r.2.asU32 >>? fun v => .ok (r.1, v)) [0x83, 0x03, 0x01,
    0x00, 0x01]) = some (.error (.unexpectedTag (some 2) 3)) := by decide +kernel
example : sameObj (sequenceOf .der (parseDerWithTag D0 Tag.integer) [0x30, 0x00]) [] (.fromSeq [])
    = true := by decide +kernel
example : sameObj (sequenceOf .der (parseDerWithTag D0 Tag.integer) [0x30, 0x0a, 0x02, 0x03, 0x01,
    0x00, 0x01, 0x02, 0x03, 0x01, 0x00, 0x00]) [] (.fromSeq [.fromIntSlice [0x01, 0x00, 0x01],
    .fromIntSlice [0x01, 0x00, 0x00]]) = true := by decide +kernel
example : errOf (sequenceOf .der (parseDerWithTag D0 Tag.integer) [0x30, 0x07, 0x02, 0x03, 0x01,
    0x00, 0x01, 0x02, 0x03, 0x01]) = some (.error (.nomError .eof)) := by decide +kernel
example : errOf (sequenceOf .der (parseDerWithTag D0 Tag.integer) [0x31, 0x0a, 0x02, 0x03, 0x01,
    0x00, 0x01, 0x02, 0x03, 0x01, 0x00, 0x00]) = some (.error (.unexpectedTag (some 16) 17)) := by
  decide +kernel
example : errOf (sequenceOf .der (parseDerWithTag D0 Tag.integer) [0x30, 0x80, 0x02, 0x03, 0x01,
    0x00, 0x01, 0x00, 0x00]) = some (.error (.derConstraintFailed .indefiniteLength)) := by
  decide +kernel
example : sameObj (sequenceDefined .der (pair (parseDerWithTag D0 Tag.integer) (parseDerWithTag D0
    Tag.integer)) [0x30, 0x0a, 0x02, 0x03, 0x01, 0x00, 0x01, 0x02, 0x03, 0x01, 0x00, 0x00]) []
    (.fromSeq [.fromIntSlice [0x01, 0x00, 0x01], .fromIntSlice [0x01, 0x00, 0x00]]) = true := by
  decide +kernel
example : errOf (sequenceDefined .der (pair (parseDerWithTag D0 Tag.integer) (parseDerWithTag D0
    Tag.integer)) [0x30, 0x07, 0x02, 0x03, 0x01, 0x00, 0x01, 0x02, 0x01]) = some (.incomplete
    (.size 1)) := by decide +kernel
example : errOf (sequenceDefined .der (pair (parseDerWithTag D0 Tag.integer) (parseDerWithTag D0
    Tag.integer)) [0x31, 0x0a, 0x02, 0x03, 0x01, 0x00, 0x01, 0x02, 0x03, 0x01, 0x00, 0x00]) = some
    (.error (.unexpectedTag (some 16) 17)) := by decide +kernel
example : errOf (sequenceDefined .der (pair (parseDerWithTag D0 Tag.integer) (parseDerWithTag D0
    Tag.integer)) [0x30, 0x80, 0x02, 0x03, 0x01, 0x00, 0x01, 0x00, 0x00]) = some (.error
    (.derConstraintFailed .indefiniteLength)) := by decide +kernel
example : sameObj (setOf .der (parseDerWithTag D0 Tag.integer) [0x31, 0x00]) [] (.fromSet []) =
    true := by decide +kernel
example : sameObj (setOf .der (parseDerWithTag D0 Tag.integer) [0x31, 0x0a, 0x02, 0x03, 0x01, 0x00,
    0x01, 0x02, 0x03, 0x01, 0x00, 0x00]) [] (.fromSet [.fromIntSlice [0x01, 0x00, 0x01],
    .fromIntSlice [0x01, 0x00, 0x00]]) = true := by decide +kernel
example : errOf (setOf .der (parseDerWithTag D0 Tag.integer) [0x31, 0x07, 0x02, 0x03, 0x01, 0x00,
    0x01, 0x02, 0x03, 0x01]) = some (.error (.nomError .eof)) := by decide +kernel
example : errOf (setOf .der (parseDerWithTag D0 Tag.integer) [0x30, 0x0a, 0x02, 0x03, 0x01, 0x00,
    0x01, 0x02, 0x03, 0x01, 0x00, 0x00]) = some (.error (.unexpectedTag (some 17) 16)) := by
  decide +kernel
example : errOf (setOf .der (parseDerWithTag D0 Tag.integer) [0x31, 0x80, 0x02, 0x03, 0x01, 0x00,
    0x01, 0x00, 0x00]) = some (.error (.derConstraintFailed .indefiniteLength)) := by decide +kernel
example : sameObj (setDefined .der (pair (parseDerWithTag D0 Tag.integer) (parseDerWithTag D0
    Tag.integer)) [0x31, 0x0a, 0x02, 0x03, 0x01, 0x00, 0x01, 0x02, 0x03, 0x01, 0x00, 0x00]) []
    (.fromSet [.fromIntSlice [0x01, 0x00, 0x01], .fromIntSlice [0x01, 0x00, 0x00]]) = true := by
  decide +kernel
example : errOf (setDefined .der (pair (parseDerWithTag D0 Tag.integer) (parseDerWithTag D0
    Tag.integer)) [0x31, 0x07, 0x02, 0x03, 0x01, 0x00, 0x01, 0x02, 0x01]) = some (.incomplete
    (.size 1)) := by decide +kernel
example : errOf (setDefined .der (pair (parseDerWithTag D0 Tag.integer) (parseDerWithTag D0
    Tag.integer)) [0x30, 0x0a, 0x02, 0x03, 0x01, 0x00, 0x01, 0x02, 0x03, 0x01, 0x00, 0x00]) = some
    (.error (.unexpectedTag (some 17) 16)) := by decide +kernel
example : errOf (setDefined .der (pair (parseDerWithTag D0 Tag.integer) (parseDerWithTag D0
    Tag.integer)) [0x31, 0x80, 0x02, 0x03, 0x01, 0x00, 0x01, 0x00, 0x00]) = some (.error
    (.derConstraintFailed .indefiniteLength)) := by decide +kernel

-- /repo/tests/custom_error.rs
example : ofV (E := MyError) .ber Tag.sequence (fun i => match parseBerUint 4 i with
    | .ok r => .ok r | .err (.incomplete n) => .err (.incomplete n) | _ => .err (.error .variant1))
    [0x30, 0x0a, 0x02, 0x03, 0x01, 0x00, 0x01, 0x02, 0x03, 0x01, 0x00, 0x00]
    = .ok ([], [65537, 65536]) := by decide +kernel

-- /repo/tests/fuzz01.rs, fuzz02.rs: no panic
example : (match parseDer D0 [0x03, 0x00, 0x00, 0x6b, 0x6b, 0x00, 0x00, 0x00, 0x00, 0x00, 0x00,
    0x00, 0x2e, 0x00, 0xff, 0xff, 0xff, 0xff, 0xff, 0xff, 0xff, 0xff, 0xff, 0xff, 0xff, 0xff, 0xff,
    0xff, 0xff, 0xff, 0xff, 0xff, 0x3b, 0xff, 0xff, 0xff, 0xff, 0xff, 0xff, 0xff, 0xff, 0xff, 0x01,
    0x00, 0x00, 0x00, 0xff, 0x0a, 0xff] with | .panic => false | .diverge => false | _ => true) =
    true := by decide +kernel
example : (match parseDer D0 [0x06, 0x00, 0x01, 0x00, 0x00, 0x2a] with
    | .panic => false | .diverge => false | _ => true) = true := by decide +kernel
example : (match parseDer D0 [0x06, 0x0a, 0x2a, 0xf1, 0x0a, 0x2a, 0xbe, 0xbe, 0xbe, 0xbe, 0xbe,
    0xbe, 0xbe, 0xbe, 0xbe, 0xbe, 0xbe, 0xbe, 0xbe, 0xbe, 0xbe, 0xbe, 0xbe, 0xbe, 0xbe, 0xbe, 0xbe,
    0xbe, 0xbe, 0xbe, 0xbe, 0xbe] with | .panic => false | .diverge => false | _ => true) = true := by
  decide +kernel
example : (match parseDer D0 [0x50, 0x2a, 0x0a, 0x8d, 0x00, 0x00, 0x00, 0x00, 0x00, 0xff, 0xff,
    0xff, 0xff, 0xff, 0xff, 0xff, 0xff, 0xff, 0xff, 0x0a, 0x00, 0x0b, 0x22, 0x56, 0x01, 0x00, 0x00,
    0x00, 0x00, 0x00, 0x00, 0x00, 0x00, 0x00, 0x00, 0x00, 0x00, 0x00, 0x00, 0x00, 0x00, 0x00, 0x00,
    0x00, 0x00, 0x00, 0x00, 0x00, 0xf1, 0x0a, 0x2a, 0x00, 0x00, 0x00, 0x00, 0x00, 0x00, 0x00, 0x0a,
    0x00, 0x00, 0x00, 0x00, 0x00, 0x00] with | .panic => false | .diverge => false | _ => true) =
    true := by decide +kernel

-- /repo/tests/issue-76.rs
example : (headerFromBer [0x80, 0x04, 0x00, 0x4c, 0x00, 0x65] >>? fun r => parseBerContent D0
    (Tag.bmpString) r.1 r.2 maxRecursion).map (·.1) = .ok [] := by decide +kernel
example : (headerFromBer [0x80, 0x06, 0x79, 0x3E, 0x30, 0xBA, 0x30, 0xFC] >>? fun r =>
    parseBerContent D0 (Tag.bmpString) r.1 r.2 maxRecursion).map (·.1) = .ok [] := by decide +kernel

-- /repo/tests/oid.rs
example : (OidMacro.encodeComponents [1, 2, 840, 113549, 1, 1, 1] false) = .ok [0x2a, 0x86, 0x48,
    0x86, 0xf7, 0x0d, 0x01, 0x01, 0x01] := by decide +kernel

-- /repo/src/ber/wrap_any.rs:194-226
example : (parseBerAnyR D0 maxRecursion [0x01, 0x01, 0x00]).map (fun r => (r.1, r.2.content.rustEq
    (.boolean false))) = .ok ([], true) := by decide +kernel
example : (parseBerAnyR D0 maxRecursion [0x01, 0x01, 0xff]).map (fun r => (r.1, r.2.content.rustEq
    (.boolean true))) = .ok ([], true) := by decide +kernel
example : (parseBerAnyR D0 maxRecursion [0x01, 0x01, 0x7f]).map (fun r => (r.1, r.2.content.rustEq
    (.boolean true))) = .ok ([], true) := by decide +kernel
example : (parseBerAnyR D0 maxRecursion [0x02, 0x02, 0x00, 0xff]).map (fun r => (r.1,
    r.2.content.rustEq (.integer [0, 0xff]))) = .ok ([], true) := by decide +kernel
example : (parseBerAnyR D0 maxRecursion [0x02, 0x02, 0x01, 0x23]).map (fun r => (r.1,
    r.2.content.rustEq (.integer [1, 0x23]))) = .ok ([], true) := by decide +kernel
example : (parseBerAnyR D0 maxRecursion [0x02, 0x04, 0xff, 0xff, 0xff, 0xff]).map (fun r => (r.1,
    r.2.content.rustEq (.integer [0xff, 0xff, 0xff, 0xff]))) = .ok ([], true) := by decide +kernel
example : (parseBerAnyR D0 maxRecursion [0x0c, 0x04, 0x31, 0x32, 0x33, 0x34]).map (fun r => (r.1,
    r.2.content.rustEq (.str .utf8 [0x31, 0x32, 0x33, 0x34]))) = .ok ([], true) := by decide +kernel
example : (parseBerAnyR D0 maxRecursion [0x0d, 0x04, 0xc2, 0x7b, 0x03, 0x02]).map (fun r => (r.1,
    r.2.content.rustEq (.relativeOid [0xc2, 0x7b, 3, 2]))) = .ok ([], true) := by decide +kernel
example : (parseBerAnyR D0 maxRecursion [0x12, 0x04, 0x31, 0x32, 0x33, 0x34]).map (fun r => (r.1,
    r.2.content.rustEq (.str .numeric [0x31, 0x32, 0x33, 0x34]))) = .ok ([], true) := by
  decide +kernel
example : (parseBerAnyR D0 maxRecursion [0x13, 0x04, 0x31, 0x32, 0x33, 0x34]).map (fun r => (r.1,
    r.2.content.rustEq (.str .printable [0x31, 0x32, 0x33, 0x34]))) = .ok ([], true) := by
  decide +kernel
example : (parseBerAnyR D0 maxRecursion [0x16, 0x04, 0x31, 0x32, 0x33, 0x34]).map (fun r => (r.1,
    r.2.content.rustEq (.str .ia5 [0x31, 0x32, 0x33, 0x34]))) = .ok ([], true) := by decide +kernel
example : (parseBerAnyR D0 maxRecursion [0x1a, 0x04, 0x31, 0x32, 0x33, 0x34]).map (fun r => (r.1,
    r.2.content.rustEq (.str .visible [0x31, 0x32, 0x33, 0x34]))) = .ok ([], true) := by
  decide +kernel
example : (parseBerAnyR D0 maxRecursion [0x1e, 0x08, 0x00, 0x55, 0x00, 0x73, 0x00, 0x65, 0x00,
    0x72]).map (fun r => (r.1, r.2.content.rustEq (.bmpString [0x00, 0x55, 0x00, 0x73, 0x00, 0x65,
    0x00, 0x72]))) = .ok ([], true) := by decide +kernel
example : (parseBerAnyR D0 maxRecursion [0x30, 0x80, 0x04, 0x03, 0x56, 0x78, 0x90, 0x00, 0x00]).map
    (fun r => (r.1, r.2.content.rustEq (.sequence [.fromObj (.octetString [0x56, 0x78, 0x90])]))) =
    .ok ([], true) := by decide +kernel
example : errOf (parseBerAnyR D0 maxRecursion [0x12, 0x04, 0x01, 0x02, 0x03, 0x04]) = some (.error
    (.stringInvalidCharset)) := by decide +kernel
example : errOf (parseBerAnyR D0 maxRecursion [0x13, 0x04, 0x01, 0x02, 0x03, 0x04]) = some (.error
    (.stringInvalidCharset)) := by decide +kernel

-- /repo/src/ber/serialize.rs:241-445
example : (toVec D0 (.fromObj (.boolean true))).map (fun v => sameObj (parseBerWithTag D0
    Tag.boolean v) [] (.fromObj (.boolean true))) = .ok true := by decide +kernel
example : (toVec D0 (.fromObj (.boolean false))).map (fun v => sameObj (parseBerWithTag D0
    Tag.boolean v) [] (.fromObj (.boolean false))) = .ok true := by decide +kernel
example : (toVec D0 (.fromObj (.integer [0x01, 0x00, 0x01]))).map (fun v => sameObj
    (parseBerWithTag D0 Tag.integer v) [] (.fromObj (.integer [0x01, 0x00, 0x01]))) = .ok true := by
  decide +kernel
example : (toVec D0 (.fromObj (.bitString 6 [0x6e, 0x5d, 0xe0]))).map (fun v => sameObj
    (parseBerWithTag D0 Tag.bitString v) [] (.fromObj (.bitString 6 [0x6e, 0x5d, 0xe0]))) = .ok
    true := by decide +kernel
example : toVec D0 (.fromObj (.bitString 6 [0x6e, 0x5d, 0xe0])) = .ok [0x03, 0x04, 0x06, 0x6e,
    0x5d, 0xe0] := by decide +kernel
example : (toVec D0 (.fromObj (.octetString [0x41, 0x41, 0x41, 0x41, 0x41]))).map (fun v => sameObj
    (parseBerWithTag D0 Tag.octetString v) [] (.fromObj (.octetString [0x41, 0x41, 0x41, 0x41,
    0x41]))) = .ok true := by decide +kernel
example : toVec D0 (.fromObj (.octetString [0x41, 0x41, 0x41, 0x41, 0x41])) = .ok [0x04, 0x05,
    0x41, 0x41, 0x41, 0x41, 0x41] := by decide +kernel
example : (toVec D0 (.fromObj (.enum 2))).map (fun v => sameObj (parseBerWithTag D0 Tag.enumerated
    v) [] (.fromObj (.enum 2))) = .ok true := by decide +kernel
example : toVec D0 (.fromObj (.enum 2)) = .ok [0x0a, 0x01, 0x02] := by decide +kernel
example : (toVec D0 (.fromObj (.null))).map (fun v => sameObj (parseBerWithTag D0 Tag.null v) []
    (.fromObj (.null))) = .ok true := by decide +kernel
example : (toVec D0 (.fromObj (.oid [0x2A, 0x86, 0x48, 0x86, 0xF7, 0x0D, 0x01, 0x01, 0x05]))).map
    (fun v => sameObj (parseBerWithTag D0 Tag.oid v) [] (.fromObj (.oid [0x2A, 0x86, 0x48, 0x86,
    0xF7, 0x0D, 0x01, 0x01, 0x05]))) = .ok true := by decide +kernel
example : toVec D0 (.fromObj (.oid [0x2A, 0x86, 0x48, 0x86, 0xF7, 0x0D, 0x01, 0x01, 0x05])) = .ok
    [0x06, 0x09, 0x2A, 0x86, 0x48, 0x86, 0xF7, 0x0D, 0x01, 0x01, 0x05] := by decide +kernel
example : (toVec D0 (.fromObj (.relativeOid [0xc2, 0x7b, 0x03, 0x02]))).map (fun v => sameObj
    (parseBerWithTag D0 Tag.relativeOid v) [] (.fromObj (.relativeOid [0xc2, 0x7b, 0x03, 0x02]))) =
    .ok true := by decide +kernel
example : toVec D0 (.fromObj (.relativeOid [0xc2, 0x7b, 0x03, 0x02])) = .ok [0x0d, 0x04, 0xc2,
    0x7b, 0x03, 0x02] := by decide +kernel
example : toVec D0 (.fromSeq [.fromIntSlice [0x01, 0x00, 0x01], .fromIntSlice [0x01, 0x00, 0x00]])
    = .ok [0x30, 0x0a, 0x02, 0x03, 0x01, 0x00, 0x01, 0x02, 0x03, 0x01, 0x00, 0x00] := by
  decide +kernel
example : toVec D0 (.fromSet [.fromIntSlice [0x01, 0x00, 0x01], .fromIntSlice [0x01, 0x00, 0x00]])
    = .ok [0x31, 0x0a, 0x02, 0x03, 0x01, 0x00, 0x01, 0x02, 0x03, 0x01, 0x00, 0x00] := by
  decide +kernel
example : (headerFromBer [0x02, 0x03, 0x01, 0x00, 0x01] >>? fun r => liftBytes (encodeHeader r.2))
    = .ok [2, 3] := by decide +kernel
example : encodeTaggedExplicit D0 0 .contextSpecific (.fromIntSlice [2]) = .ok [0xa0, 0x03, 0x02,
    0x01, 0x02] := by decide +kernel
example : (parseExplicitOptional 0 (parseBerWithTag D0 Tag.integer) [0xa0, 0x03, 0x02, 0x01, 0x02]
    >>? fun r => liftRes (r.2.asOptional >>? fun o => match o with
      | some o => (o.asTagged >>? fun t => .ok (t.2.1, t.2.2.rustEq (.fromIntSlice [2])))
      | none => .panic)) = .ok (0, true) := by
  decide +kernel
example : encodeTaggedExplicit D0 2 .application (.fromIntSlice [2]) = .ok [0x62, 0x03, 0x02, 0x01,
    0x02] := by decide +kernel
example : (parseExplicitOptional 2 (parseBerWithTag D0 Tag.integer) [0x62, 0x03, 0x02, 0x01, 0x02]
    >>? fun r => liftRes (r.2.asOptional >>? fun o => match o with
      | some o => (o.asTagged >>? fun t => .ok (t.2.1, t.2.2.rustEq (.fromIntSlice [2])))
      | none => .panic)) = .ok (2, true) := by
  decide +kernel
example : encodeTaggedImplicit D0 3 .contextSpecific (.fromIntSlice [2]) = .ok [0x83, 0x01, 0x02] := by
  decide +kernel
example : (parseImplicit 3 (fun i hdr d => berReadElementContentAs D0 i Tag.integer hdr.length
    false d) [0x83, 0x01, 0x02]).map (fun r => (r.2.header.tag, r.2.content.rustEq (.integer [2])))
    = .ok (3, true) := by decide +kernel
example : encodeTaggedImplicit D0 30 .contextSpecific (.fromIntSlice [2]) = .ok [0x9e, 0x01, 0x02] := by
  decide +kernel
example : (parseImplicit 30 (fun i hdr d => berReadElementContentAs D0 i Tag.integer hdr.length
    false d) [0x9e, 0x01, 0x02]).map (fun r => (r.2.header.tag, r.2.content.rustEq (.integer [2])))
    = .ok (30, true) := by decide +kernel

-- /repo/src/ber/ber.rs:883-1003
example : (anyFromDer [0x02, 0x03, 0x01, 0x00, 0x01] >>? fun r => liftRes (objectTryFromAny D0 r.2
    >>? fun o => o.asU32)) = .ok 0x10001 := by decide +kernel
example : (BerObject.fromIntSlice [1, 0, 2]).asU64 = .ok 0x10002 := by decide +kernel
example : ((parseBerWithTag D0 Tag.bitString [0x03, 0x04, 0x06, 0x6e, 0x5d, 0xc0]) >>? fun r =>
    liftRes r.2.asU64) = .ok 0b011011100101110111 := by decide +kernel
example : ((parseBerWithTag D0 Tag.bitString [0x03, 0x04, 0x06, 0x6e, 0x5d, 0xe0]) >>? fun r =>
    liftRes r.2.asU64) = .ok 0b011011100101110111 := by decide +kernel
example : (let l : List BerObject := [.fromIntSlice [0x01, 0x00, 0x01], .fromIntSlice [0x01, 0x00, 0x00]]
    let r1 := (BerObject.fromSeq l).refIter.next
    let r2 := r1.2.next
    listRustEq (r1.1.toList ++ r2.1.toList) l && r2.2.next.1.isNone) = true := by decide +kernel
example : OidMacro.encodeComponents [1, 2] false = .ok [42] := by decide +kernel
example : bitStringIsSet [0x0f, 0x00, 0x40] 0 = .ok false := by decide +kernel
example : bitStringIsSet [0x0f, 0x00, 0x40] 7 = .ok true := by decide +kernel
example : bitStringIsSet [0x0f, 0x00, 0x40] 9 = .ok false := by decide +kernel
example : bitStringIsSet [0x0f, 0x00, 0x40] 17 = .ok true := by decide +kernel
example : (Content.bitString 0 [0x0f, 0x00, 0x40]).asBitslice = .ok
    ([0,0,0,0,1,1,1,1,0,0,0,0,0,0,0,0,0,1,0,0,0,0,0,0].map (· == 1)) := by decide +kernel
example : (BerObject.fromObj (.integer [0x01, 0x00, 0x01])).asBigint = .ok 0x10001 := by
  decide +kernel
example : (BerObject.fromObj (.integer [0x01, 0x00, 0x01])).asBiguint = .ok 0x10001 := by
  decide +kernel

-- /repo/src/ber/parser.rs:643-660
example : bitstringToU64 8 [0x0d, 0x71, 0x82] = .ok 0x0d71 := by decide +kernel
example : (bitstringToU64 0 [0x0d, 0x71, 0x82, 0x0e, 0x73, 0x72, 0x76, 0x6e, 0x67, 0x6e, 0x62,
    0x6c, 0x6e, 0x2d, 0x65, 0x78, 0x30, 0x31]).isOk = false := by decide +kernel
example : bitstringToU64 130 [0x0d, 0x71, 0x82, 0x0e, 0x73, 0x72, 0x76, 0x6e, 0x67, 0x6e, 0x62,
    0x6c, 0x6e, 0x2d, 0x65, 0x78, 0x30, 0x31] = .ok (0x0d71 / 4) := by decide +kernel

end Verif.Tests
