import Verif.Print
/-!
# Specification of printed text

Decimal numerals, names of types, and the text for headers and values that the pretty printer is meant to write.
-/
namespace Verif.Spec

/-- `t` is the decimal numeral of `n`: at least one digit, no leading zero, most significant digit first. -/
structure IsDecimal (t : Bytes) (n : Nat) : Prop where
  some_digit : t ≠ []
  digits : ∀ b ∈ t, 0x30 ≤ b.toNat ∧ b.toNat ≤ 0x39
  no_leading_zero : t.head? = some 0x30 → t = [0x30]
  value : t.foldl (fun a b => a * 10 + (b.toNat - 0x30)) 0 = n

/-- Octets in decimal with `, ` between. -/
inductive DecimalList : Bytes → Bytes → Prop
  | one (n : UInt8) (t : Bytes) : IsDecimal t n.toNat → DecimalList [n] t
  | more (n : UInt8) (t : Bytes) (ns ts : Bytes) : IsDecimal t n.toNat → DecimalList ns ts →
      DecimalList (n :: ns) (t ++ lit ", " ++ ts)

/-- Names of the string types, X.680 table 8 (and `ObjectDescriptor`, X.680 48.3). -/
def strName : StrKind → String
  | .visible => "VisibleString"
  | .general => "GeneralString"
  | .graphic => "GraphicString"
  | .printable => "PrintableString"
  | .numeric => "NumericString"
  | .utf8 => "UTF8String"
  | .ia5 => "IA5String"
  | .t61 => "T61String"
  | .videotex => "VideotexString"
  | .objectDescriptor => "ObjectDescriptor"

/-- Text of a header: class and tag number in brackets, `+` for a constructed encoding, length. -/
inductive HeaderText (P : PrintDeps) (h : Header) : Bytes → Prop
  | mk (t len : Bytes) :
      (match h.cls with
        | .universal => t = P.tag h.tag
        | .contextSpecific => IsDecimal t h.tag
        | c => ∃ n, t = P.cls c ++ lit " " ++ n ∧ IsDecimal n h.tag) →
      (match h.length with
        | .definite l => IsDecimal len l
        | .indefinite => len = lit "Indefinite") →
      HeaderText P h (lit "[" ++ t ++ lit "]" ++ (if h.constructed = true then lit "+" else []) ++ lit " " ++ len)

/-- Text of the values written on one line: the name of the type and the value in parentheses.  Character strings
are in quotation marks, except for T61String and VideotexString; nothing in them is escaped. -/
inductive ValueText (P : PrintDeps) : Content → Bytes → Prop
  | boolean (b : Bool) : ValueText P (.boolean b) (if b = true then lit "Boolean(true)" else lit "Boolean(false)")
  | integer (s : Bytes) : ValueText P (.integer s) (lit "Integer(" ++ P.hexSlice s ++ lit ")")
  | enum (n : Nat) (t : Bytes) : IsDecimal t n → ValueText P (.enum n) (lit "Enum(" ++ t ++ lit ")")
  | bitString (u : UInt8) (s t : Bytes) : IsDecimal t u.toNat →
      ValueText P (.bitString u s) (lit "BitString(" ++ t ++ lit "," ++ P.hexSlice s ++ lit ")")
  | octetString (s : Bytes) : ValueText P (.octetString s) (lit "OctetString(" ++ P.hexSlice s ++ lit ")")
  | null : ValueText P .null (lit "Null")
  | oid (s : Bytes) : ValueText P (.oid s) (lit "OID(" ++ P.oid false s ++ lit ")")
  | relativeOid (s : Bytes) : ValueText P (.relativeOid s) (lit "RelativeOID(" ++ P.oid true s ++ lit ")")
  | utcTime (t : DateTime) : ValueText P (.utcTime t) (lit "UTCTime(\"" ++ P.dateTime t ++ lit "\")")
  | generalizedTime (t : DateTime) :
      ValueText P (.generalizedTime t) (lit "GeneralizedTime(\"" ++ P.dateTime t ++ lit "\")")
  | quoted (k : StrKind) (s : Bytes) : k ≠ .t61 → k ≠ .videotex →
      ValueText P (.str k s) (lit (strName k) ++ lit "(\"" ++ s ++ lit "\")")
  | unquoted (k : StrKind) (s : Bytes) : k = .t61 ∨ k = .videotex →
      ValueText P (.str k s) (lit (strName k) ++ lit "(" ++ s ++ lit ")")
  | unknown (a : Any) : ValueText P (.unknown a) (lit "Unknown " ++ P.hexSlice a.data)

end Verif.Spec
