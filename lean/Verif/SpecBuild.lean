import Verif.SpecValue
/-!
# Specification: objects that a program builds for a value, and the DER encoding of a value
-/
namespace Verif.Spec

/-- The content that a program gives for a value which is not a SEQUENCE or SET: the number in as few octets as possible,
the bits followed by zeros up to the end of the last octet, the characters encoded as the type asks. -/
def Holds : Value → Content → Prop
  | .boolean b, x => x = .boolean b
  | .integer z, x => ∃ c, MinInt c ∧ twosComplement c = z ∧ x = .integer c
  | .bits bs, x => ∃ u s, bitsOf s = bs ++ List.replicate u.toNat false ∧ u.toNat ≤ 7 ∧ x = .bitString u s
  | .octets s, x => x = .octetString s
  | .null, x => x = .null
  | .oid arcs, x => ∃ c, ArcsCode arcs c ∧ x = .oid c
  | .relativeOid arcs, x => ∃ c, arcs ≠ [] ∧ SubIds arcs c ∧ x = .relativeOid c
  | .enumerated z, x => 0 ≤ z ∧ z < 2 ^ 64 ∧ x = .enum z.toNat
  | .text k cs, x => PlainText k ∧ (∀ c ∈ cs, IsScalar c) ∧ PrimContents (strTag k) (cs.flatMap utf8Enc) ∧
      x = .str k (cs.flatMap utf8Enc)
  | .universalText cs, x => (∀ c ∈ cs, IsScalar c) ∧ x = .universalString (cs.flatMap ucs4Enc)
  | .bmp cs, x => (∀ c ∈ cs, IsScalar c ∧ c < 0x10000) ∧ x = .bmpString (cs.flatMap utf16Enc)
  | .utcTime t, x => x = .utcTime t
  | .generalizedTime t, x => x = .generalizedTime t
  | .sequence _, _ | .set _, _ | .other _ _ _ _, _ => False

/-- `Built P d v o`: a program builds the object `o` for the value `v` with the constructors of /repo/src/ber/ber.rs:113-153
and 384-395: `from_obj` and `From` for the contents, `from_int_slice`, `from_seq`, `from_set`, and
`from_header_and_content` for elements of other classes, with any length in the header.  There are at most `d` levels, and
the values that are not SEQUENCE or SET satisfy `P`. -/
inductive Built (P : Value → Prop) : Nat → Value → BerObject → Prop
  | content (d : Nat) (v : Value) (x : Content) : Holds v x → P v → Built P (d + 1) v (.fromObj x)
  | intSlice (d : Nat) (z : Int) (c : Bytes) : MinInt c → twosComplement c = z → P (.integer z) →
      Built P (d + 1) (.integer z) (.fromIntSlice c)
  | other (d : Nat) (cls : Class) (k : Bool) (num : Nat) (len : Length) (c : Bytes) : cls ≠ .universal →
      P (.other cls k num c) → Built P (d + 1) (.other cls k num c)
        (.mk (Header.new cls k num len) (.unknown ⟨Header.new cls k num len, c⟩))
  | sequence (d : Nat) (ps : List (Value × BerObject)) : (∀ p ∈ ps, Built P d p.1 p.2) →
      Built P (d + 1) (.sequence (ps.map Prod.fst)) (.fromSeq (ps.map Prod.snd))
  | set (d : Nat) (ps : List (Value × BerObject)) : (∀ p ∈ ps, Built P d p.1 p.2) →
      Built P (d + 1) (.set (ps.map Prod.fst)) (.fromSet (ps.map Prod.snd))

/-- `DerCodes D P d v e`: the octets `e` are the DER encoding of `v`.  The members of a SET are in the order that the value
gives them (see C107 for the order that DER asks for). -/
inductive DerCodes (D : Deps) (P : Value → Prop) : Nat → Value → Bytes → Prop
  | primitive (d : Nat) (id len c : Bytes) (v : Value) : MinIdent id .universal false v.num → MinLen len c.length →
      PrimContents v.num c → Means D v c → P v → DerCodes D P (d + 1) v (id ++ (len ++ c))
  | other (d : Nat) (id len c : Bytes) (cls : Class) (k : Bool) (num : Nat) : cls ≠ .universal → MinIdent id cls k num →
      MinLen len c.length → P (.other cls k num c) → DerCodes D P (d + 1) (.other cls k num c) (id ++ (len ++ c))
  | list (d : Nat) (id len : Bytes) (ps : List (Value × Bytes)) (num : Nat) (v : Value) :
      MinIdent id .universal true num → ListOf num (ps.map Prod.fst) v → MinLen len (ps.map Prod.snd).flatten.length →
      (∀ p ∈ ps, DerCodes D P d p.1 p.2) → DerCodes D P (d + 1) v (id ++ (len ++ (ps.map Prod.snd).flatten))

end Verif.Spec
