import Verif.SpecBer
import Verif.Lemmas.Oid
/-!
# Specification: abstract values and their BER encodings

What the octets of a BER document mean (X.690 clause 8), written without reference to the parser, and what it is for an
object to answer with a value.
-/
namespace Verif.Spec

/-- Abstract values.  Character strings are lists of code points; OBJECT IDENTIFIERs are lists of arcs.  A time is what the
date library makes of its text.  Of elements of other classes, whose type is not known without a schema, the value is the
tag and the contents octets. -/
inductive Value where
  | boolean (b : Bool)
  | integer (z : Int)
  | bits (bs : List Bool)
  | octets (s : Bytes)
  | null
  | oid (arcs : List Nat)
  | relativeOid (arcs : List Nat)
  | enumerated (z : Int)
  | text (k : StrKind) (cs : List Nat)
  | universalText (cs : List Nat)
  | bmp (cs : List Nat)
  | utcTime (t : DateTime)
  | generalizedTime (t : DateTime)
  | sequence (vs : List Value)
  | set (vs : List Value)
  | other (cls : Class) (k : Bool) (num : Nat) (c : Bytes)

/-- Class of the tag. -/
def Value.cls : Value → Class
  | .other cls _ _ _ => cls
  | _ => .universal

/-- Tag number (X.680 8.4). -/
def Value.num : Value → Nat
  | .boolean _ => 1
  | .integer _ => 2
  | .bits _ => 3
  | .octets _ => 4
  | .null => 5
  | .oid _ => 6
  | .relativeOid _ => 13
  | .enumerated _ => 10
  | .text k _ => strTag k
  | .universalText _ => 28
  | .bmp _ => 30
  | .utcTime _ => 23
  | .generalizedTime _ => 24
  | .sequence _ => 16
  | .set _ => 17
  | .other _ _ num _ => num

/-- A code point in four octets (8.23.7). -/
def ucs4Enc (c : Nat) : Bytes :=
  [UInt8.ofNat (c / 16777216), UInt8.ofNat (c / 65536 % 256), UInt8.ofNat (c / 256 % 256), UInt8.ofNat (c % 256)]

/-- OBJECT IDENTIFIER: the first subidentifier is for the first two arcs (8.19.4); the first arc is 0, 1 or 2, the second
one less than 40 under 0 and 1. -/
def ArcsCode (arcs : List Nat) (c : Bytes) : Prop :=
  ∃ a b rest, arcs = a :: b :: rest ∧ a ≤ 2 ∧ (a < 2 → b < 40) ∧ SubIds ((40 * a + b) :: rest) c

/-- The string types that are known here. -/
def PlainText (k : StrKind) : Prop := k ∈ [StrKind.utf8, .numeric, .printable, .ia5, .visible]

/-- What primitive contents octets mean.  (Those of the four ASCII string types are one octet for each character, which for
code points below 128 is UTF-8.) -/
def Means (D : Deps) : Value → Bytes → Prop
  | .boolean b, c => ∃ o, c = [o] ∧ (b = true ↔ o ≠ 0)
  | .integer z, c | .enumerated z, c => twosComplement c = z
  | .bits bs, c => ∃ u s, c = u :: s ∧ bs = (bitsOf s).take (8 * s.length - u.toNat)
  | .octets s, c => c = s
  | .null, c => c = []
  | .oid arcs, c => ArcsCode arcs c
  | .relativeOid arcs, c => SubIds arcs c
  | .text k cs, c => PlainText k ∧ (∀ x ∈ cs, IsScalar x) ∧ c = cs.flatMap utf8Enc
  | .universalText cs, c => (∀ x ∈ cs, IsScalar x) ∧ c = cs.flatMap ucs4Enc
  | .bmp cs, c => (∀ x ∈ cs, IsScalar x) ∧ c = cs.flatMap utf16Enc
  | .utcTime t, c => D.utcTime false c = .ok t
  | .generalizedTime t, c => D.generalizedTime false c = .ok t
  | .sequence _, _ | .set _, _ | .other _ _ _ _, _ => False

/-- The value of a SEQUENCE or SET, by tag number. -/
def ListOf (num : Nat) (vs : List Value) (v : Value) : Prop :=
  (num = 16 ∧ v = .sequence vs) ∨ (num = 17 ∧ v = .set vs)

/-- `Codes D X P N d n v e`: the octets `e` are a BER encoding of the value `v`.  `X`, `N`, `d` and `n` are as in `BerDoc`;
every value that is not a SEQUENCE or SET satisfies `P` (the first argument says whether it is in segments).  Segments are
those of OCTET STRING (8.7.3) only. -/
inductive Codes (D : Deps) (X : Bytes → Prop) (P : Bool → Value → Prop) (N : Nat) : Nat → Nat → Value → Bytes → Prop
  | primitive (d n : Nat) (id len c : Bytes) (v : Value) : MinIdent id .universal false v.num →
      LenOctets len (.definite c.length) → BerPrim v.num c → Means D v c → P false v →
      Codes D X P N (d + 1) (n + 1) v (id ++ (len ++ c))
  | other (d n : Nat) (id len c : Bytes) (cls : Class) (k : Bool) (num : Nat) : cls ≠ .universal → MinIdent id cls k num →
      LenOctets len (.definite c.length) → P false (.other cls k num c) →
      Codes D X P N (d + 1) (n + 1) (.other cls k num c) (id ++ (len ++ c))
  | otherIndefinite (d n : Nat) (id : Bytes) (es : List Bytes) (cls : Class) (num : Nat) : cls ≠ .universal →
      MinIdent id cls true num → P false (.other cls true num es.flatten) → (∀ e ∈ es, Element IsEoc X (n + 1) e) →
      Codes D X P N (d + 1) (n + 2) (.other cls true num es.flatten) (id ++ 0x80 :: (es.flatten ++ [0, 0]))
  | list (d n : Nat) (id len : Bytes) (ps : List (Value × Bytes)) (num : Nat) (v : Value) :
      MinIdent id .universal true num → ListOf num (ps.map Prod.fst) v →
      LenOctets len (.definite (ps.map Prod.snd).flatten.length) → (∀ p ∈ ps, Codes D X P N d N p.1 p.2) →
      Codes D X P N (d + 1) (n + 1) v (id ++ (len ++ (ps.map Prod.snd).flatten))
  | listIndefinite (d n : Nat) (id : Bytes) (ps : List (Value × Bytes)) (num : Nat) (v : Value) :
      MinIdent id .universal true num → ListOf num (ps.map Prod.fst) v →
      (∀ p ∈ ps, Codes D X P N d (n + 1) p.1 p.2) → (∀ p ∈ ps, ¬ X p.2) →
      Codes D X P N (d + 1) (n + 2) v (id ++ 0x80 :: ((ps.map Prod.snd).flatten ++ [0, 0]))
  | segments (d n : Nat) (id len : Bytes) (ps : List (Bytes × Bytes)) : MinIdent id .universal true 4 →
      LenOctets len (.definite (ps.map Prod.snd).flatten.length) → P true (.octets (ps.map Prod.fst).flatten) →
      (∀ p ∈ ps, Codes D X P N d N (.octets p.1) p.2) →
      Codes D X P N (d + 1) (n + 1) (.octets (ps.map Prod.fst).flatten) (id ++ (len ++ (ps.map Prod.snd).flatten))
  | segmentsIndefinite (d n : Nat) (id : Bytes) (ps : List (Bytes × Bytes)) : MinIdent id .universal true 4 →
      P true (.octets (ps.map Prod.fst).flatten) →
      (∀ p ∈ ps, Codes D X P N d (n + 1) (.octets p.1) p.2) → (∀ p ∈ ps, ¬ X p.2) →
      Codes D X P N (d + 1) (n + 2) (.octets (ps.map Prod.fst).flatten)
        (id ++ 0x80 :: ((ps.map Prod.snd).flatten ++ [0, 0]))

/-- Answers for an INTEGER.  (`as_i64` and `as_i32` are left open between half of their range and the whole, where they
answer with a negative number, see C18.) -/
def IntAnswers (o : BerObject) (z : Int) : Prop :=
  o.asBigint = .ok z ∧
  o.asBiguint = (if z < 0 then .err .integerNegative else .ok z.toNat) ∧
  o.asU64 = (if z < 0 then .err .integerNegative else if z < 2 ^ 64 then .ok z.toNat else .err .integerTooLarge) ∧
  o.asU32 = (if z < 0 then .err .integerNegative else if z < 2 ^ 32 then .ok z.toNat else .err .integerTooLarge) ∧
  (-2 ^ 63 ≤ z → z < 2 ^ 63 → o.asI64 = .ok z) ∧ (z < -2 ^ 63 ∨ 2 ^ 64 ≤ z → o.asI64 = .err .integerTooLarge) ∧
  (-2 ^ 31 ≤ z → z < 2 ^ 31 → o.asI32 = .ok z) ∧ (z < -2 ^ 31 ∨ 2 ^ 32 ≤ z → o.asI32 = .err .integerTooLarge)

/-- Answers for a BIT STRING: the octets and the number of unused bits together give the length, `is_set` gives the bits,
and `as_u64` the number that they form. -/
def BitAnswers (o : BerObject) (bs : List Bool) : Prop :=
  ∃ u data, o.content = .bitString u data ∧ o.content.asBitstring = .ok data ∧ o.content.asSlice = .ok data ∧
    8 * data.length = bs.length + u.toNat ∧ u.toNat ≤ 7 ∧
    (∀ i (hi : i < bs.length), bitStringIsSet data i = .ok bs[i]) ∧
    o.asU64 = (if bs.length ≤ 64 then .ok (ofBits bs) else .err .integerTooLarge)

/-- The answers of the accessors for values that are not SEQUENCE or SET.  (There is none for NULL and for times, whose
variant is taken apart.) -/
def Answers (o : BerObject) : Value → Prop
  | .boolean b => o.content.asBool = .ok b
  | .integer z => IntAnswers o z
  | .bits bs => BitAnswers o bs
  | .octets s => o.content.asSlice = .ok s
  | .null => o.content = .null
  | .oid arcs => ∃ c, o.content.asOid = .ok c ∧ ArcsCode arcs c
  | .relativeOid arcs => ∃ c, o.content.asOid = .ok c ∧ SubIds arcs c
  | .enumerated z => 0 ≤ z ∧ o.asU64 = .ok z.toNat ∧ o.asU32 = .ok z.toNat
  | .text _ cs => (∀ x ∈ cs, IsScalar x) ∧ o.content.asStr = .ok (cs.flatMap utf8Enc) ∧
      o.content.asSlice = .ok (cs.flatMap utf8Enc)
  | .universalText cs => (∀ x ∈ cs, IsScalar x) ∧ o.content.asSlice = .ok (cs.flatMap ucs4Enc)
  | .bmp cs => (∀ x ∈ cs, IsScalar x) ∧ o.content.asSlice = .ok (cs.flatMap utf16Enc)
  | .utcTime t => o.content = .utcTime t
  | .generalizedTime t => o.content = .generalizedTime t
  | .other cls k _ c => cls ≠ .universal ∧ o.header.constructed = k ∧ o.content.asSlice = .ok c
  | .sequence _ | .set _ => False

/-- The object has the tag of the value, and its accessors answer with the value, at every level. -/
inductive HasValue : BerObject → Value → Prop
  | leaf (o : BerObject) (v : Value) : o.header.cls = v.cls → o.header.tag = v.num → Answers o v → HasValue o v
  | sequence (o : BerObject) (ps : List (BerObject × Value)) : o.header.cls = .universal → o.header.tag = 16 →
      o.content.asSequence = .ok (ps.map Prod.fst) → (∀ p ∈ ps, HasValue p.1 p.2) → HasValue o (.sequence (ps.map Prod.snd))
  | set (o : BerObject) (ps : List (BerObject × Value)) : o.header.cls = .universal → o.header.tag = 17 →
      o.content.asSet = .ok (ps.map Prod.fst) → (∀ p ∈ ps, HasValue p.1 p.2) → HasValue o (.set (ps.map Prod.snd))

/-- Values that come through: in one piece; enumerated values are not negative and less than 2^32; tag numbers have
32 bits. -/
def Readable (seg : Bool) (v : Value) : Prop :=
  seg = false ∧ match v with
  | .enumerated z => 0 ≤ z ∧ z < 2 ^ 32
  | .other _ _ num _ => num < 2 ^ 32
  | _ => True

/-- Values that are also written: no times, tag numbers that fit in one octet, and enumerated values that are greater than 0
and whose number of binary digits is not a multiple of 8. -/
def Rewritable (seg : Bool) (v : Value) : Prop :=
  seg = false ∧ match v with
  | .enumerated z => 0 < z ∧ z < 2 ^ 32 ∧ z.toNat.log2 % 8 ≠ 7
  | .utcTime _ | .generalizedTime _ => False
  | .other _ _ num _ => num ≤ 30
  | _ => True

/-- BER elements of the types that are known here, in one piece. -/
def KnownType (D : Deps) (cls : Class) (k : Bool) (num : Nat) (c : Bytes) : Prop :=
  cls = .universal → k = false ∧ (num ∈ [1, 2, 3, 4, 5, 6, 10, 12, 13, 18, 19, 22, 26, 30] ∨
    (num = 28 ∧ ∃ cs : List Nat, (∀ x ∈ cs, IsScalar x) ∧ c = cs.flatMap ucs4Enc) ∨
    (num = 23 ∧ ∃ t, D.utcTime false c = .ok t) ∨ (num = 24 ∧ ∃ t, D.generalizedTime false c = .ok t))

end Verif.Spec
