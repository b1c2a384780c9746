import Verif.Asn1
/-! Text output: the parts of `core::fmt` that the library uses.  Text is the list of its UTF-8
octets, as `core::fmt::Write::write_str` receives it. -/
namespace Verif

/-- An ASCII literal of a format string. -/
def lit (s : String) : Bytes := s.toList.map fun c => UInt8.ofNat c.toNat

/-- `" "` padded to width `n` (`{:1$}` with argument `" "`), for `n > 0`; used for indentation. -/
def spaces (n : Nat) : Bytes := List.replicate n 0x20

/-- Decimal digits, least significant first, at most `fuel` of them. -/
def decimalRev : Nat → Nat → Bytes
  | 0, _ => []
  | fuel + 1, n =>
    UInt8.ofNat (0x30 + n % 10) :: if n / 10 = 0 then [] else decimalRev fuel (n / 10)

/-- `Display` for unsigned integers. -/
def decimal (n : Nat) : Bytes := (decimalRev (n + 1) n).reverse

/-- One hexadecimal digit, lower case. -/
def hexDigit (n : Nat) : UInt8 := if n < 10 then UInt8.ofNat (0x30 + n) else UInt8.ofNat (0x57 + n)

/-- `{:x}` for a `u8`: no padding. -/
def lowerHex (b : UInt8) : Bytes :=
  if b.toNat < 16 then [hexDigit b.toNat] else [hexDigit (b.toNat / 16), hexDigit (b.toNat % 16)]

/-- Joins with a separator. -/
def sepBy (sep : Bytes) : List Bytes → Bytes
  | [] => []
  | [x] => x
  | x :: xs => x ++ sep ++ sepBy sep xs

/-- `Debug` for `&[u8]`: `[1, 2, 255]`. -/
def debugBytes (s : Bytes) : Bytes :=
  lit "[" ++ sepBy (lit ", ") (s.map fun b => decimal b.toNat) ++ lit "]"

/-- `{:x?}` for `&[u8]`: `[1, 2, ff]`. -/
def debugHexBytes (s : Bytes) : Bytes := lit "[" ++ sepBy (lit ", ") (s.map lowerHex) ++ lit "]"

/-- `char::encode_utf8` (`Display` for `char`). -/
def encodeUtf8 (c : Nat) : Bytes :=
  if c < 0x80 then [UInt8.ofNat c]
  else if c < 0x800 then [UInt8.ofNat (0xC0 + c / 64), UInt8.ofNat (0x80 + c % 64)]
  else if c < 0x10000 then
    [UInt8.ofNat (0xE0 + c / 4096), UInt8.ofNat (0x80 + c / 64 % 64), UInt8.ofNat (0x80 + c % 64)]
  else
    [UInt8.ofNat (0xF0 + c / 262144), UInt8.ofNat (0x80 + c / 4096 % 64),
      UInt8.ofNat (0x80 + c / 64 % 64), UInt8.ofNat (0x80 + c % 64)]

/-- `String::from_utf16`: the scalar values, `none` for an unpaired surrogate. -/
def decodeUtf16 : List Nat → Option (List Nat)
  | [] => some []
  | u :: rest =>
    if u < 0xD800 || 0xDFFF < u then (decodeUtf16 rest).map (u :: ·)
    else if 0xDC00 ≤ u then none
    else match rest with
      | v :: rest' =>
        if 0xDC00 ≤ v ∧ v ≤ 0xDFFF then
          (decodeUtf16 rest').map ((0x10000 + (u - 0xD800) * 1024 + (v - 0xDC00)) :: ·)
        else none
      | [] => none

/-- `chunks_exact(4)` then `u32::from_be_bytes`. -/
def utf32Units : Bytes → List Nat
  | a :: b :: c :: d :: rest =>
    (((a.toNat * 256 + b.toNat) * 256 + c.toNat) * 256 + d.toNat) :: utf32Units rest
  | _ => []

/-- `core::char::from_u32` succeeds. -/
def isScalarValue (c : Nat) : Bool := c < 0xD800 || (0xDFFF < c && c < 0x110000)

end Verif
