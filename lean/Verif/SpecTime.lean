import Verif.Spec
/-!
# Times

What is asked of a date library in the theorems about times.  `asn1-rs` 0.7 is modelled in `Verif/Calendar.lean`; the
theorems of `Verif/Props/Times.lean` hold for every library of this kind.
-/
namespace Verif
namespace Spec

/-- Time zone of a time: `Z`, none, or a difference in hours and minutes. -/
inductive TimeZone where
  | z | undefined | offset (hours minutes : Int)
deriving DecidableEq, Repr

/-- The parts of a time (`ASN1DateTime`). -/
structure Clock where
  year : Nat
  month : Nat
  day : Nat
  hour : Nat
  minute : Nat
  second : Nat
  milli : Option Nat
  zone : TimeZone
deriving DecidableEq, Repr

/-- The parts have at most four (the year) or two decimal digits. -/
structure Clock.InRange (c : Clock) : Prop where
  year : c.year < 10000
  month : c.month < 100
  day : c.day < 100
  hour : c.hour < 100
  minute : c.minute < 100
  second : c.second < 100

/-- The last decimal digit of a number. -/
def digit (n : Nat) : UInt8 := UInt8.ofNat (48 + n % 10)

/-- A number in two decimal digits. -/
def two (n : Nat) : Bytes := [digit (n / 10), digit n]

/-- A number in decimal digits, without leading zeroes; for numbers below 1000. -/
def upToThree (n : Nat) : Bytes :=
  if n < 10 then [digit n] else if n < 100 then two n else digit (n / 100) :: two n

/-- YYYYMMDDhhmmss. -/
def Clock.longDigits (c : Clock) : Bytes :=
  two (c.year / 100) ++ two c.year ++ two c.month ++ two c.day ++ two c.hour ++ two c.minute ++ two c.second

/-- YYMMDDhhmm. -/
def Clock.shortDigits (c : Clock) : Bytes :=
  two c.year ++ two c.month ++ two c.day ++ two c.hour ++ two c.minute

/-- A full stop and the milliseconds as a number: `.7` for seven milliseconds. -/
def fraction : Option Nat → Bytes
  | none => []
  | some v => 0x2e :: upToThree v

/-- YYYYMMDDhhmmss, the milliseconds, and `Z`, whatever the zone. -/
def Clock.text (c : Clock) : Bytes := c.longDigits ++ fraction c.milli ++ [0x5a]

/-- What a fraction with these digits means: `.7` is 700 milliseconds. -/
def scaled (v : Nat) : Nat := if v < 10 then v * 100 else if v < 100 then v * 10 else v

/-- The time that the text of `c` stands for. -/
def Clock.reread (c : Clock) : Clock := { c with milli := c.milli.map scaled, zone := .z }

/-- Octets that may follow the minutes of a UTCTime: perhaps two for the seconds, then `Z`, a difference, or nothing. -/
def UtcTail (r : Bytes) : Prop :=
  ∃ s z : Bytes, r = s ++ z ∧ (s = [] ∨ s.length = 2) ∧
    (z = [] ∨ z = [0x5a] ∨ ∃ sign w : Bytes, (sign = [0x2b] ∨ sign = [0x2d]) ∧ w.length = 4 ∧ z = sign ++ w)

/-- `D` reads and writes times like asn1-rs: UTCTime is YYMMDDhhmm[ss] and a zone, GeneralizedTime begins with
YYYYMMDDhhmmss, and both are displayed as YYYYMMDDhhmmss, milliseconds, `Z`.  `date` is the value stored in an object. -/
structure DateLibrary (D : Deps) (date : Clock → DateTime) : Prop where
  /-- different times are different values -/
  inj : ∀ c c', date c = date c' → c = c'
  /-- `Display` -/
  display : ∀ c, c.InRange → (∀ v, c.milli = some v → v < 1000) → D.display (date c) = c.text
  /-- what is read as UTCTime has one of the forms of X.680, and no milliseconds -/
  utc : ∀ k b t, D.utcTime k b = .ok t → ∃ c r, t = date c ∧ c.InRange ∧ c.year < 100 ∧ c.milli = none ∧
    b = c.shortDigits ++ r ∧ UtcTail r
  /-- what is read as GeneralizedTime has parts within range -/
  generalized : ∀ k b t, D.generalizedTime k b = .ok t → ∃ c, t = date c ∧ c.InRange
  /-- the usual form of a time that was read in another form is read as well -/
  reads : ∀ k b c, D.generalizedTime k b = .ok (date c) → (∀ v, c.milli = some v → v < 1000) →
    D.generalizedTime k c.text = .ok (date c.reread)

end Spec
end Verif
