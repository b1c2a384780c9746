import Verif.OidMacro
/-!
# OID macro: text in and out, model of `encode_oid`, /repo/der-oid-macro/src/lib.rs:65-90

Strings are lists of characters.  `TokenStream::to_string` and the final `parse` into a token stream
belong to the compiler; the model goes from the text of the macro argument to the text of the
expansion.
-/
namespace Verif
namespace OidMacro
open Outcome

/-- `char::is_whitespace` (Unicode White_Space), used by `str::trim`. -/
def isWhitespace (c : Char) : Bool :=
  let n := c.toNat
  (9 ≤ n && n ≤ 13) || n == 0x20 || n == 0x85 || n == 0xA0 || n == 0x1680 ||
    (0x2000 ≤ n && n ≤ 0x200A) || n == 0x2028 || n == 0x2029 || n == 0x202F || n == 0x205F ||
    n == 0x3000

/-- `str::trim`, /repo/der-oid-macro/src/lib.rs:77. -/
def trim (s : List Char) : List Char :=
  ((s.dropWhile isWhitespace).reverse.dropWhile isWhitespace).reverse

/-- `str::split('.')`, /repo/der-oid-macro/src/lib.rs:76: never empty. -/
def splitDot : List Char → List (List Char)
  | [] => [[]]
  | c :: cs =>
    if c = '.' then [] :: splitDot cs
    else match splitDot cs with
      | [] => [[c]]
      | s :: ss => (c :: s) :: ss

/-- Digits of `BigUint::from_str_radix(_, 10)` (num-bigint): underscores are skipped, anything else
but a decimal digit is an error. -/
def parseDigits : Nat → List Char → Option Nat
  | acc, [] => some acc
  | acc, c :: cs =>
    if c = '_' then parseDigits acc cs
    else if c.isDigit then parseDigits (acc * 10 + (c.toNat - 48)) cs
    else none

/-- num-bigint 0.4 `from_str_radix`: one leading `+` is dropped unless a second one follows. -/
def stripPlus : List Char → List Char
  | '+' :: '+' :: t => '+' :: '+' :: t
  | '+' :: t => t
  | s => s

/-- num-bigint 0.4 `from_str_radix`: the rest must not be empty or start with an underscore. -/
def parseUnsigned : List Char → Option Nat
  | [] => none
  | c :: cs => if c = '_' then none else parseDigits 0 (c :: cs)

/-- `s.parse::<BigUint>()`, /repo/der-oid-macro/src/lib.rs:78. -/
def parseBigUint (s : List Char) : Option Nat := parseUnsigned (stripPlus s)

/-- `.map(|s| s.parse().unwrap()).collect()`, /repo/der-oid-macro/src/lib.rs:75-79. -/
def parseComponents : List (List Char) → Outcome Empty (List Nat)
  | [] => .ok []
  | s :: ss =>
    match parseBigUint (trim s) with
    | none => .panic
    | some n => parseComponents ss >>? fun ns => .ok (n :: ns)

/-- Hexadecimal digit, lower case. -/
def hexChar (n : Nat) : Char := if n < 10 then Char.ofNat (48 + n) else Char.ofNat (87 + n)

/-- `format!("0x{:02x}, ", byte)`, /repo/der-oid-macro/src/lib.rs:86. -/
def byteText (b : UInt8) : List Char :=
  ['0', 'x', hexChar (b.toNat / 16), hexChar (b.toNat % 16), ',', ' ']

/-- The text of the expansion, /repo/der-oid-macro/src/lib.rs:83-88. -/
def arrayText (enc : Bytes) : List Char := '[' :: enc.flatMap byteText ++ [']']

/-- `encode_oid`, /repo/der-oid-macro/src/lib.rs:66-90. -/
def encodeOid (s : List Char) : Outcome Empty (List Char) :=
  match s with
  | 'r' :: 'e' :: 'l' :: ' ' :: rem =>
    parseComponents (splitDot rem) >>? fun ns => encodeComponents ns true >>? fun enc =>
      .ok (arrayText enc)
  | _ =>
    parseComponents (splitDot s) >>? fun ns => encodeComponents ns false >>? fun enc =>
      .ok (arrayText enc)

end OidMacro
end Verif
