import Verif.Spec
/-!
# Specification: DER documents

The Distinguished Encoding Rules of X.690 (clauses 8, 10 and 11), written without reference to the parser.
-/
namespace Verif.Spec

/-- Identifier octets, as few as possible: one octet for tag numbers up to 30 (8.1.2.2), no leading `80` after the
first octet otherwise (8.1.2.4.2 c). -/
def MinIdent (id : Bytes) (cls : Class) (k : Bool) (num : Nat) : Prop :=
  IdentOctets id cls k num ∧ ∀ id', IdentOctets id' cls k num → id.length ≤ id'.length

/-- Contents of INTEGER and ENUMERATED: one or more octets, the first nine bits neither all zero nor all one (8.3.2). -/
def MinInt (c : Bytes) : Prop :=
  c ≠ [] ∧ (bitsOf c).take 9 ≠ List.replicate 9 false ∧ (bitsOf c).take 9 ≠ List.replicate 9 true

/-- Contents of BIT STRING: the number of unused bits (none if there is no other octet, 8.6.2.3), and octets whose unused
bits are zero (11.2.1). -/
def BitContents (c : Bytes) : Prop :=
  ∃ u s, c = u :: s ∧ u.toNat ≤ 7 ∧ (s = [] → u = 0) ∧
    ∀ b ∈ (bitsOf s).drop (8 * s.length - u.toNat), b = false

/-- Contents of OBJECT IDENTIFIER: one or more subidentifiers without leading `80` (8.19.2). -/
def OidContents (c : Bytes) : Prop :=
  ∃ ss : List Bytes, ss ≠ [] ∧ c = ss.flatten ∧ ∀ s ∈ ss, ∃ ms last, s = ms ++ [last] ∧
    (∀ m ∈ ms, 128 ≤ m.toNat) ∧ last.toNat < 128 ∧ ms.head? ≠ some 0x80

/-- A decimal digit. -/
def Digit (b : UInt8) : Prop := 48 ≤ b.toNat ∧ b.toNat ≤ 57

/-- UTCTime: YYMMDDhhmmssZ (11.8). -/
def UtcContents (c : Bytes) : Prop := ∃ ds : Bytes, ds.length = 12 ∧ (∀ b ∈ ds, Digit b) ∧ c = ds ++ [0x5a]

/-- GeneralizedTime: YYYYMMDDhhmmss, perhaps a fraction that does not end with 0, and Z (11.7). -/
def GeneralizedContents (c : Bytes) : Prop :=
  ∃ ds fs : Bytes, ds.length = 14 ∧ (∀ b ∈ ds, Digit b) ∧ c = ds ++ (fs ++ [0x5a]) ∧
    (fs = [] ∨ ∃ gs last, fs = 0x2e :: (gs ++ [last]) ∧ (∀ b ∈ gs, Digit b) ∧ Digit last ∧ last ≠ 0x30)

/-- Contents octets of primitive universal types.  Nothing is asked of types whose contents are described elsewhere
(REAL, TIME, TeletexString and other registered character sets). -/
def PrimContents : Nat → Bytes → Prop
  /- end-of-contents is not a type; EXTERNAL, EMBEDDED PDV, SEQUENCE, SET, CHARACTER STRING are constructed -/
  | 0, _ | 8, _ | 11, _ | 16, _ | 17, _ | 29, _ => False
  | 1, c => c = [0x00] ∨ c = [0xff]
  | 2, c | 10, c => MinInt c
  | 3, c => BitContents c
  | 5, c => c = []
  | 6, c | 13, c => OidContents c
  | 12, c => IsUtf8 c
  | 18, c => ∀ b ∈ c, b.toNat = 32 ∨ Digit b
  | 19, c => ∀ b ∈ c, (65 ≤ b.toNat ∧ b.toNat ≤ 90) ∨ (97 ≤ b.toNat ∧ b.toNat ≤ 122) ∨ Digit b ∨
      b.toNat ∈ [32, 39, 40, 41, 43, 44, 45, 46, 47, 58, 61, 63]
  | 22, c => ∀ b ∈ c, b.toNat ≤ 127
  | 23, c => UtcContents c
  | 24, c => GeneralizedContents c
  | 26, c => ∀ b ∈ c, 32 ≤ b.toNat ∧ b.toNat ≤ 126
  | 28, c => c.length % 4 = 0
  | 30, c => ∃ cs : List Nat, (∀ x ∈ cs, IsScalar x ∧ x < 0x10000) ∧ c = cs.flatMap utf16Enc
  | _, _ => True

/-- DER documents with at most `d` levels of SEQUENCE and SET, each of whose elements satisfies `P` (class, tag number,
contents octets).  Elements that are constructed without being SEQUENCE or SET may have any contents, and the order of
the elements of a SET is not restricted, so that all DER documents are here, and some more. -/
inductive DerDoc (P : Class → Nat → Bytes → Prop) : Nat → Bytes → Prop
  | primitive (d : Nat) (id len c : Bytes) (cls : Class) (num : Nat) : MinIdent id cls false num →
      MinLen len c.length → (cls = .universal → PrimContents num c) → P cls num c → DerDoc P (d + 1) (id ++ len ++ c)
  | list (d : Nat) (id len : Bytes) (es : List Bytes) (num : Nat) : MinIdent id .universal true num →
      num = 16 ∨ num = 17 → MinLen len es.flatten.length → (∀ e ∈ es, DerDoc P d e) →
      DerDoc P (d + 1) (id ++ len ++ es.flatten)
  | constructed (d : Nat) (id len c : Bytes) (cls : Class) (num : Nat) : MinIdent id cls true num →
      MinLen len c.length → cls ≠ .universal ∨ num = 8 ∨ num = 11 ∨ num = 29 → P cls num c →
      DerDoc P (d + 1) (id ++ len ++ c)

/-- Limits of the library on one element: tag numbers of 32 bits, enumerated values that are less than 2^32 when read
without sign, times known to the date library, and strings of registered character sets that are UTF-8 and pass the
test of the string library. -/
def Supported (D : Deps) (cls : Class) (num : Nat) (c : Bytes) : Prop :=
  num < 2 ^ 32 ∧ (cls = .universal →
    (num = 10 → base256 c < 2 ^ 32) ∧
    (num = 23 → ∃ t, D.utcTime false c = .ok t) ∧
    (num = 24 → ∃ t, D.generalizedTime false c = .ok t) ∧
    (∀ k ∈ [StrKind.objectDescriptor, .t61, .videotex, .graphic, .general], num = strTag k →
      IsUtf8 c ∧ D.charset k c = true))

end Verif.Spec
