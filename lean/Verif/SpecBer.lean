import Verif.SpecDer
/-!
# Specification: BER documents

The Basic Encoding Rules of X.690 (clause 8), written without reference to the parser.
-/
namespace Verif.Spec

/-- Contents of BIT STRING: the number of unused bits, from 0 to 7, and 0 if there is no other octet (8.6.2.2, 8.6.2.3);
the unused bits are free. -/
def BerBits (c : Bytes) : Prop := ∃ u s, c = u :: s ∧ u.toNat ≤ 7 ∧ (s = [] → u = 0)

/-- The zone of a time: Z, or a sign and four digits (X.680 46.3, 47.3). -/
def Zone (z : Bytes) : Prop :=
  z = [0x5a] ∨ ∃ s ds, z = s :: ds ∧ (s = 0x2b ∨ s = 0x2d) ∧ ds.length = 4 ∧ ∀ b ∈ ds, Digit b

/-- UTCTime: YYMMDDhhmm, perhaps seconds, and a zone (X.680 47.3). -/
def BerUtc (c : Bytes) : Prop :=
  ∃ ds z, c = ds ++ z ∧ (ds.length = 10 ∨ ds.length = 12) ∧ (∀ b ∈ ds, Digit b) ∧ Zone z

/-- GeneralizedTime: YYYYMMDDhh, perhaps minutes and seconds, perhaps a fraction after a point or comma, and perhaps a
zone, of which the minutes may be omitted (X.680 46.2, 46.3). -/
def BerGeneralized (c : Bytes) : Prop :=
  ∃ ds fs z, c = ds ++ (fs ++ z) ∧ (ds.length = 10 ∨ ds.length = 12 ∨ ds.length = 14) ∧ (∀ b ∈ ds, Digit b) ∧
    (fs = [] ∨ ∃ p gs, fs = p :: gs ∧ (p = 0x2e ∨ p = 0x2c) ∧ gs ≠ [] ∧ ∀ b ∈ gs, Digit b) ∧
    (z = [] ∨ Zone z ∨ ∃ s a b, z = [s, a, b] ∧ (s = 0x2b ∨ s = 0x2d) ∧ Digit a ∧ Digit b)

/-- Contents octets of primitive universal types.  Nothing is asked of types whose contents are described elsewhere
(REAL, TIME, TeletexString and other registered character sets). -/
def BerPrim : Nat → Bytes → Prop
  /- end-of-contents is not a type; EXTERNAL, EMBEDDED PDV, SEQUENCE, SET, CHARACTER STRING are constructed -/
  | 0, _ | 8, _ | 11, _ | 16, _ | 17, _ | 29, _ => False
  | 1, c => c.length = 1
  | 2, c | 10, c => MinInt c
  | 3, c => BerBits c
  | 5, c => c = []
  | 6, c | 13, c => OidContents c
  | 12, c => IsUtf8 c
  | 18, c => ∀ b ∈ c, b.toNat = 32 ∨ Digit b
  | 19, c => ∀ b ∈ c, (65 ≤ b.toNat ∧ b.toNat ≤ 90) ∨ (97 ≤ b.toNat ∧ b.toNat ≤ 122) ∨ Digit b ∨
      b.toNat ∈ [32, 39, 40, 41, 43, 44, 45, 46, 47, 58, 61, 63]
  | 22, c => ∀ b ∈ c, b.toNat ≤ 127
  | 23, c => BerUtc c
  | 24, c => BerGeneralized c
  | 26, c => ∀ b ∈ c, 32 ≤ b.toNat ∧ b.toNat ≤ 126
  | 28, c => c.length % 4 = 0
  | 30, c => ∃ cs : List Nat, (∀ x ∈ cs, IsScalar x ∧ x < 0x10000) ∧ c = cs.flatMap utf16Enc
  | _, _ => True

/-- Types, other than SEQUENCE and SET, that have a constructed encoding: tagged types, EXTERNAL, EMBEDDED PDV,
CHARACTER STRING, and in segments BIT STRING (8.6.4), OCTET STRING (8.7.3), the character strings and the times
(8.23, 8.25). -/
def Composite (cls : Class) (num : Nat) : Prop :=
  cls ≠ .universal ∨ num ∈ [3, 4, 7, 8, 11, 12, 18, 19, 20, 21, 22, 23, 24, 25, 26, 27, 28, 29, 30]

/-- BER documents each of whose elements satisfies `P` (class, constructed, tag number, contents octets).  Identifier
octets are as few as possible in BER too (8.1.2.2, 8.1.2.4); the length octets have any definite form, or, in a
constructed encoding, the indefinite form, which is followed by elements and `00 00`.  Byte strings satisfying `X` are
not counted as elements there: X.690 8.1.5 reserves `00 00`.

The first index bounds the levels of SEQUENCE and SET.  The second one bounds the levels of indefinite lengths directly
inside one another, from the element itself on; an indefinite length counts at least two.  In the members of a SEQUENCE or
SET of definite length a new count starts, with the bound `N`.  For no bounds at all quantify over the three numbers.

Of the contents of constructed encodings other than SEQUENCE and SET only the indefinite lengths are followed, and they
may be anything in the definite form, so that all BER documents are here (those apart that have, within an element of
indefinite length, tag numbers or lengths beyond what `BerHeader` allows), and some more. -/
inductive BerDoc (X : Bytes → Prop) (P : Class → Bool → Nat → Bytes → Prop) (N : Nat) : Nat → Nat → Bytes → Prop
  | primitive (d n : Nat) (id len c : Bytes) (cls : Class) (num : Nat) : MinIdent id cls false num →
      LenOctets len (.definite c.length) → (cls = .universal → BerPrim num c) → P cls false num c →
      BerDoc X P N (d + 1) (n + 1) (id ++ (len ++ c))
  | constructed (d n : Nat) (id len c : Bytes) (cls : Class) (num : Nat) : MinIdent id cls true num →
      LenOctets len (.definite c.length) → Composite cls num → P cls true num c →
      BerDoc X P N (d + 1) (n + 1) (id ++ (len ++ c))
  | constructedIndefinite (d n : Nat) (id : Bytes) (es : List Bytes) (cls : Class) (num : Nat) : MinIdent id cls true num →
      Composite cls num → P cls true num es.flatten → (∀ e ∈ es, Element IsEoc X (n + 1) e) →
      BerDoc X P N (d + 1) (n + 2) (id ++ 0x80 :: (es.flatten ++ [0, 0]))
  | list (d n : Nat) (id len : Bytes) (es : List Bytes) (num : Nat) : MinIdent id .universal true num →
      num = 16 ∨ num = 17 → LenOctets len (.definite es.flatten.length) → (∀ e ∈ es, BerDoc X P N d N e) →
      BerDoc X P N (d + 1) (n + 1) (id ++ (len ++ es.flatten))
  | listIndefinite (d n : Nat) (id : Bytes) (es : List Bytes) (num : Nat) : MinIdent id .universal true num →
      num = 16 ∨ num = 17 → (∀ e ∈ es, BerDoc X P N d (n + 1) e) → (∀ e ∈ es, ¬ X e) →
      BerDoc X P N (d + 1) (n + 2) (id ++ 0x80 :: (es.flatten ++ [0, 0]))

/-- Limits of the library on one element: those of `Supported`, and no segments, except of OCTET STRING and of times
that the date library reads. -/
def BerSupported (D : Deps) (cls : Class) (k : Bool) (num : Nat) (c : Bytes) : Prop :=
  num < 2 ^ 32 ∧ (cls = .universal →
    (num = 10 → base256 c < 2 ^ 32) ∧
    (num = 23 → ∃ t, D.utcTime k c = .ok t) ∧
    (num = 24 → ∃ t, D.generalizedTime k c = .ok t) ∧
    (∀ s ∈ [StrKind.objectDescriptor, .t61, .videotex, .graphic, .general], num = strTag s →
      IsUtf8 c ∧ D.charset s c = true) ∧
    (k = true → num ∈ [4, 8, 11, 23, 24, 29]))

end Verif.Spec
