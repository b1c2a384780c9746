import Verif.Multi
import Verif.Serialize
import Verif.OidMacro
/-!
# Tests of the model

These `example`s replay expectations found in the tests of /repo.  They are *tests* of the
faithfulness of the model on sample inputs, not property theorems.
-/
namespace Verif.Tests
open Verif Outcome

/-- A concrete choice of the external parameters, used by examples only: times are never
recognised, the remaining alphabets are ASCII. -/
def D0 : Deps where
  utcTime _ _ := .error .invalidDateTime
  generalizedTime _ _ := .error .invalidDateTime
  display _ := []
  charset _ bs := bs.all isAsciiByte

/-- Header as parsed from one identifier octet. -/
def h (cls : Class) (c : Bool) (tag : Nat) (len : Nat) (raw : Bytes) : Header :=
  { cls, constructed := c, tag, length := .definite len, rawTag := some raw }

-- /repo/tests/ber_parser.rs, /repo/tests/der_parser.rs: headers and truncation
example : parseBer D0 [0x30] = .err (.incomplete (.size 1)) := rfl
example : parseDer D0 [0x30] = .err (.incomplete (.size 1)) := rfl
example : headerFromBer [0x02, 0x85] = .err (.incomplete (.size 5)) := rfl
example : headerFromBer [0x02, 0x85, 0xff] = .err (.incomplete (.size 4)) := rfl
example : headerFromBer [0x02, 0x8a, 0xff,0xff,0xff,0xff,0xff,0xff,0xff,0xff,0xff,0xff, 0x00]
    = .err (.error .invalidLength) := rfl
example : headerFromBer [0x02, 0xff, 0x00] = .err (.error .invalidLength) := rfl
example : parseDer D0 [0x02, 0x02, 0x00] = .err (.incomplete (.size 2)) := rfl
example : (headerFromBer [0x9f, 0xa2, 0x22, 0x00]).map (·.2.tag) = .ok 0x1122 := rfl
example : headerFromBer [0x1f, 0x81, 0x81, 0x81, 0x81, 0x81, 0x81, 0x01, 0x00]
    = .err (.error .invalidTag) := rfl

-- integers
example : parseBerWithTag D0 Tag.integer [0x02, 0x01, 0x02, 0xff, 0xff]
    = .ok ([0xff, 0xff], .mk (h .universal false 2 1 [0x02]) (.integer [0x02])) := rfl
example : parseBerUint 4 [0x02, 0x03, 0x01, 0x00, 0x01] = .ok ([], 65537) := rfl
example : parseBerUint 4 [0x02, 0x02, 0x00, 0xff] = .ok ([], 255) := rfl
example : parseBerUint 4 [0x02, 0x05, 0, 0, 0, 0, 1] = .ok ([], 1) := rfl
example : parseBerUint 4 [0x02, 0x04, 0xff, 0xff, 0xff, 0xff] = .err (.error .integerNegative) := rfl
example : parseBerUint 4 [0x03, 0x03, 0x01, 0x00, 0x01]
    = .err (.error (.unexpectedTag (some 2) 3)) := rfl
example : parseBerInt 8 [0x02, 0x01, 0xff] = .ok ([], -1) := by decide +kernel
example : parseBerInt 8 [0x02, 0x02, 0xff, 0x7f] = .ok ([], -129) := by decide +kernel
example : parseDerInt 4 [0x02, 0x02, 0xff, 0xf0]
    = .err (.error (.derConstraintFailed .integerLeadingFF)) := rfl

-- generic parsing
example : parseBer D0 [0xc0, 0x03, 0x01, 0x00, 0x01]
    = .ok ([], .mk (h .priv false 0 3 [0xc0])
        (.unknown ⟨h .priv false 0 3 [0xc0], [0x01, 0x00, 0x01]⟩)) := rfl
example : (parseBer D0 [0x30, 0x80, 0x04, 0x03, 0x56, 0x78, 0x90, 0x00, 0x00]).map (·.1)
    = .ok [] := rfl
example : parseBer D0 [0x0c, 0x04, 0x00, 0x9f, 0x92, 0x96] = .err (.error .stringInvalidCharset) :=
  rfl
example : parseBer D0 [0x12, 0x04, 0x01, 0x02, 0x03, 0x04] = .err (.error .stringInvalidCharset) :=
  rfl
example : parseBer D0 [0x1e, 0x04, 0x00, 0x55, 0x00, 0x73]
    = .ok ([], .mk (h .universal false 30 4 [0x1e]) (.bmpString [0x00, 0x55, 0x00, 0x73])) := rfl
example : parseDer D0 [0x03, 0x04, 0x06, 0x6e, 0x5d, 0xe0]
    = .err (.error (.derConstraintFailed .unusedBitsNotZero)) := rfl
example : parseDer D0 [0x03, 0x04, 0x06, 0x6e, 0x5d, 0xc0]
    = .ok ([], .mk (h .universal false 3 4 [0x03]) (.bitString 6 [0x6e, 0x5d, 0xc0])) := rfl

-- containers
example : parseSlice .ber 2 [0x22, 0x80, 0x02, 0x01, 0x01, 0x00, 0x00] = .ok ([], [2, 1, 1]) := rfl
example : parseSlice .der 2 [0x22, 0x80, 0x02, 0x01, 0x01, 0x00, 0x00]
    = .err (.error (.derConstraintFailed .indefiniteLength)) := rfl
example : sequenceOf .ber (parseBerWithTag D0 2) [0x30, 0x80] = .err (.incomplete (.size 1)) := rfl
example : sequenceDefined .ber (fun i => parseBerWithTag D0 2 i >>? fun a =>
      parseBerWithTag D0 2 a.1 >>? fun b => .ok (b.1, [a.2, b.2]))
    [0x30, 0x07, 0x02, 0x03, 0x01, 0x00, 0x01, 0x02, 0x01] = .err (.incomplete (.size 1)) := rfl
example : taggedExplicit .ber 2 (parseBerWithTag D0 2) [0x82, 0x03, 0x02, 0x01, 0x02]
    = .err (.error .constructExpected) := rfl
example : taggedExplicit .ber 2 (parseBerWithTag D0 2) [0x22, 0x03, 0x02, 0x01, 0x02]
    = .err (.error (.unexpectedClass none .universal)) := rfl

-- /repo/src/ber/parser.rs:643-660
example : bitstringToU64 8 [0x0d, 0x71, 0x82] = .ok 0x0d71 := rfl
example : bitstringToU64 130 [0x0d, 0x71, 0x82, 0x0e, 0x73, 0x72, 0x76, 0x6e, 0x67, 0x6e, 0x62,
    0x6c, 0x6e, 0x2d, 0x65, 0x78, 0x30, 0x31] = .ok (0x0d71 / 4) := rfl

-- /repo/src/ber/serialize.rs:241-445
example : encodeLength (.definite 38) = [38] := rfl
example : encodeLength (.definite 201) = [129, 201] := rfl
example : encodeLength (.definite 0x12345678) = [132, 0x12, 0x34, 0x56, 0x78] := rfl
example : toVec D0 (.fromSeq [.fromIntSlice [1, 0, 1], .fromIntSlice [1, 0, 0]])
    = .ok [0x30, 0x0a, 0x02, 0x03, 0x01, 0x00, 0x01, 0x02, 0x03, 0x01, 0x00, 0x00] := rfl
example : toVec D0 (.fromObj (.enum 2)) = .ok [0x0a, 0x01, 0x02] := rfl
example : encodeTaggedExplicit D0 2 .application (.fromIntSlice [2])
    = .ok [0x62, 0x03, 0x02, 0x01, 0x02] := rfl
example : encodeTaggedImplicit D0 30 .contextSpecific (.fromIntSlice [2])
    = .ok [0x9e, 0x01, 0x02] := rfl

-- OIDs, /repo/src/ber/serialize.rs:310-325
example : OidMacro.encodeComponents [1, 2, 840, 113549, 1, 1, 5] false
    = .ok [0x2A, 0x86, 0x48, 0x86, 0xF7, 0x0D, 0x01, 0x01, 0x05] := by decide +kernel
example : OidMacro.encodeComponents [8571, 3, 2] true = .ok [0xc2, 0x7b, 0x03, 0x02] := by
  decide +kernel

end Verif.Tests
