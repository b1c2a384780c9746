import Verif.Fmt
import Verif.SpecTime
/-!
# Times as asn1-rs 0.7 reads and writes them

The crate is not in the sandbox; this is its behaviour as documented and as far as the tests of /repo show it
(/repo/tests/der_parser.rs:294-333).  Everything else in this project is proved for every date library; only the
theorems of `Verif/Props/Times.lean` are about libraries of this kind.
-/
namespace Verif
namespace Calendar
open Spec

/-- `decode_decimal`: two ASCII digits. -/
def decodeDecimal (hi lo : UInt8) : Option Nat :=
  if 48 ≤ hi.toNat ∧ hi.toNat ≤ 57 ∧ 48 ≤ lo.toNat ∧ lo.toNat ≤ 57 then
    some ((hi.toNat - 48) * 10 + (lo.toNat - 48))
  else none

/-- The zone at the end: `Z`, `+hhmm` or `-hhmm`. -/
def zoneOf : Bytes → Option TimeZone
  | [0x5a] => some .z
  | [0x2b, h1, h2, m1, m2] => do
    let h ← decodeDecimal h1 h2
    let m ← decodeDecimal m1 m2
    return .offset h m
  | [0x2d, h1, h2, m1, m2] => do
    let h ← decodeDecimal h1 h2
    let m ← decodeDecimal m1 m2
    return .offset (-h) m
  | _ => none

/-- Seconds are optional; two octets that are not digits are taken for zero seconds. -/
def seconds : Bytes → Nat × Bytes
  | s1 :: s2 :: rest => ((decodeDecimal s1 s2).getD 0, rest)
  | rest => (0, rest)

/-- The checks on the parts: days are not compared with the month, and zero is accepted. -/
def valid (month day hour minute second : Nat) : Bool :=
  month ≤ 12 && day ≤ 31 && hour ≤ 23 && minute ≤ 59 && second ≤ 59

/-- `UtcTime::from_bytes`. -/
def utcFromBytes : Bytes → Option Clock
  | y1 :: y2 :: m1 :: m2 :: d1 :: d2 :: h1 :: h2 :: n1 :: n2 :: rest => do
    let year ← decodeDecimal y1 y2
    let month ← decodeDecimal m1 m2
    let day ← decodeDecimal d1 d2
    let hour ← decodeDecimal h1 h2
    let minute ← decodeDecimal n1 n2
    let s := seconds rest
    if valid month day hour minute s.1 then
      let zone ← zoneOf s.2
      return { year, month, day, hour, minute, second := s.1, milli := none, zone }
    else none
  | _ => none

/-- Digits after the decimal sign: at most four, and the octets that follow. -/
def fracDigits : Nat → Bytes → List Nat × Bytes
  | n + 1, b :: rest =>
    if 48 ≤ b.toNat ∧ b.toNat ≤ 57 then ((b.toNat - 48) :: (fracDigits n rest).1, (fracDigits n rest).2)
    else ([], b :: rest)
  | _, rest => ([], rest)

/-- Milliseconds from the digits: one digit counts hundreds, two count tens. -/
def milliOf (ds : List Nat) : Nat :=
  let v := ds.foldl (fun a d => a * 10 + d) 0
  match ds.length with
  | 1 => v * 100
  | 2 => v * 10
  | _ => v

/-- The fraction and the zone of a GeneralizedTime; nothing at all means no zone. -/
def fracZone : Bytes → Option (Option Nat × TimeZone)
  | [] => some (none, .undefined)
  | b :: rest =>
    if b = 0x2e ∨ b = 0x2c then
      let f := fracDigits 4 rest
      if f.1 = [] then none
      else if f.2 = [] then some (some (milliOf f.1), .undefined)
      else if f.1.length = 4 then none
      else (zoneOf f.2).map fun w => (some (milliOf f.1), w)
    else (zoneOf (b :: rest)).map fun w => (none, w)

/-- `GeneralizedTime::from_bytes`. -/
def generalizedFromBytes : Bytes → Option Clock
  | y1 :: y2 :: y3 :: y4 :: m1 :: m2 :: d1 :: d2 :: h1 :: h2 :: n1 :: n2 :: rest => do
    let yearHi ← decodeDecimal y1 y2
    let yearLo ← decodeDecimal y3 y4
    let month ← decodeDecimal m1 m2
    let day ← decodeDecimal d1 d2
    let hour ← decodeDecimal h1 h2
    let minute ← decodeDecimal n1 n2
    if rest = [] then none else
    let s := seconds rest
    if valid month day hour minute s.1 then
      let (milli, zone) ← fracZone s.2
      return { year := yearHi * 100 + yearLo, month, day, hour, minute, second := s.1, milli, zone }
    else none
  | _ => none

/-- A time as a list of numbers. -/
def date (c : Clock) : DateTime :=
  ⟨([c.year, c.month, c.day, c.hour, c.minute, c.second] : List Int) ++
    (match c.milli with | none => [0] | some v => [1, (v : Int)]) ++
    (match c.zone with | .z => [0] | .undefined => [1] | .offset h m => [2, h, m])⟩

/-- `{:0w$}` for a number. -/
def padded (w n : Nat) : Bytes := List.replicate (w - (decimal n).length) 0x30 ++ decimal n

/-- `Display for ASN1DateTime`: the zone is not looked at. -/
def displayClock (c : Clock) : Bytes :=
  padded 4 c.year ++ padded 2 c.month ++ padded 2 c.day ++ padded 2 c.hour ++ padded 2 c.minute ++ padded 2 c.second ++
    (match c.milli with | none => [] | some v => lit "." ++ decimal v) ++ lit "Z"

/-- The parts of a time from the list of numbers. -/
def clockOf (t : DateTime) : Option Clock :=
  match t.fields with
  | y :: m :: d :: h :: n :: s :: rest =>
    let zone : List Int → Option TimeZone
      | [0] => some .z
      | [1] => some .undefined
      | [2, h, m] => some (.offset h m)
      | _ => none
    match rest with
    | 0 :: r => (zone r).map fun w => ⟨y.toNat, m.toNat, d.toNat, h.toNat, n.toNat, s.toNat, none, w⟩
    | 1 :: v :: r => (zone r).map fun w => ⟨y.toNat, m.toNat, d.toNat, h.toNat, n.toNat, s.toNat, some v.toNat, w⟩
    | _ => none
  | _ => none

/-- `TryFrom<Any>` of both types: the contents are visible characters, then `from_bytes`. -/
def fromAny (tag : Nat) (f : Bytes → Option Clock) (b : Bytes) : Except BerError DateTime :=
  if b.all isVisibleByte then
    match f b with
    | some c => .ok (date c)
    | none => .error (.invalidValue tag)
  else .error .stringInvalidCharset

/-- A date library like asn1-rs, with any alphabets. -/
def deps (charset : StrKind → Bytes → Bool) : Deps where
  utcTime _ b := fromAny 23 utcFromBytes b
  generalizedTime _ b := fromAny 24 generalizedFromBytes b
  display t := match clockOf t with
    | some c => displayClock c
    | none => []
  charset := charset

end Calendar
end Verif
