import Verif.Outcome
/-!
# OID macro: model of `encode_components`, /repo/der-oid-macro/src/lib.rs:3-63

Components are natural numbers (`num_bigint::BigUint`).  The vector `enc` is a list, updated by
index (`panic` when out of range, or when `usize` subtraction underflows).
-/
namespace Verif
namespace OidMacro
open Outcome

/-- `BigUint::to_bytes_le` for a non-zero number, i.e. `to_bytes_be` reversed
(/repo/der-oid-macro/src/lib.rs:23, 35): no most significant zero byte. -/
def bytesLE (n : Nat) : Bytes :=
  if h : n = 0 then [] else UInt8.ofNat (n % 256) :: bytesLE (n / 256)
termination_by n
decreasing_by omega

/-- `8 - bytes[0].leading_zeros()`: number of significant bits of a byte. -/
def bitLen (b : UInt8) : Nat := if b = 0 then 0 else Nat.log2 b.toNat + 1

/-- `enc[pos] = b` with bounds check. -/
def store (enc : Bytes) (pos : Nat) (b : UInt8) : Outcome Empty Bytes :=
  if pos < enc.length then .ok (enc.set pos b) else .panic

/-- Loop variables of /repo/der-oid-macro/src/lib.rs:32-36. -/
structure LoopSt where
  enc : Bytes
  pos : Nat
  extra : UInt8
  extraSize : Nat
  stored : Nat

/-- Lines 38-45: flush seven pending bits. -/
def flush (s : LoopSt) : Outcome Empty LoopSt :=
  if s.extraSize = 7 then
    store s.enc s.pos (s.extra ||| 0x80) >>? fun enc =>
      if s.pos = 0 then .panic
      else .ok { enc, pos := s.pos - 1, extra := 0, extraSize := 0, stored := s.stored + 1 }
  else .ok s

/-- Lines 46-53: store one byte shifted by the pending bits. -/
def putByte (s : LoopSt) (byte : UInt8) : Outcome Empty LoopSt :=
  store s.enc s.pos ((byte <<< UInt8.ofNat s.extraSize) ||| s.extra ||| 0x80) >>? fun enc =>
    if 0 < s.pos then
      .ok { enc, pos := s.pos - 1, extraSize := s.extraSize + 1,
            extra := byte >>> UInt8.ofNat (8 - (s.extraSize + 1)), stored := s.stored + 1 }
    else .ok { s with enc, stored := s.stored + 1 }

/-- The `for byte in bytes` loop, lines 37-54. -/
def byteLoop : LoopSt → Bytes → Outcome Empty LoopSt
  | s, [] => .ok s
  | s, b :: bs => flush s >>? fun s => putByte s b >>? fun s => byteLoop s bs

/-- Body of the component loop, lines 22-61, appending to `enc`. -/
def encodeComponent (enc : Bytes) (n : Nat) : Outcome Empty Bytes :=
  if n = 0 then .ok (enc ++ [0])
  else
    let bytes := bytesLE n
    let top := bytes.getLast?.getD 0
    let totalBits := bitLen top + (bytes.length - 1) * 8
    let octets := max ((totalBits + 6) / 7) 1
    let enc := enc ++ List.replicate octets 0
    byteLoop { enc, pos := enc.length - 1, extra := 0, extraSize := 0, stored := 0 } bytes
      >>? fun s =>
        let last := s.enc.length - 1
        (if s.stored ≠ octets then store s.enc (last + 1 - octets) (s.extra ||| 0x80)
         else .ok s.enc) >>? fun enc =>
          match enc[last]? with
          | none => .panic
          | some b => store enc last (b ^^^ 0x80)

/-- Loop over the components, line 22. -/
def encodeRest : Bytes → List Nat → Outcome Empty Bytes
  | enc, [] => .ok enc
  | enc, n :: ns => encodeComponent enc n >>? fun enc => encodeRest enc ns

/-- `encode_components`, /repo/der-oid-macro/src/lib.rs:3-63.  The product and sum of line 18
are `u8` operations: overflow panics (procedural macros run with overflow checks in debug
profiles; a release profile would wrap). -/
def encodeComponents (components : List Nat) (relative : Bool) : Outcome Empty Bytes :=
  if relative then encodeRest [] components
  else
    match components with
    | [] => .panic
    | [a] => if a = 0 then .ok [0] else .panic
    | a :: b :: rest =>
      if 7 ≤ a ∨ 40 ≤ b then .panic
      else if 256 ≤ a * 40 + b then .panic
      else encodeRest [UInt8.ofNat (a * 40 + b)] rest

end OidMacro
end Verif
