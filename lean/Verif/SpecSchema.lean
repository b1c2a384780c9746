import Verif.Schema
import Verif.Props.Combinators
/-!
# Specification of composed parsers

Which octets a composition of parsers should accept, and the object, by recursion over the composition and
without parsers: `Accepts D R s i rem o` says that `i` starts with an encoding of the type described by `s`,
standing for `o`, followed by `rem`.
-/
namespace Verif.Spec

/-- One element of any type. -/
def AnyBy (D : Deps) (R : Rules) (i rem : Bytes) (o : BerObject) : Prop :=
  ∃ c, FramedBy R i rem o.header c ∧
    match R with
    | .ber => Denotes D 50 o.header c o.content
    | .der => c.length < 2 ^ 32 ∧
        ((o.header.cls ≠ .universal ∧ o.content = .unknown ⟨o.header, c⟩) ∨
          (o.header.cls = .universal ∧ DerRules o.header.tag c ∧
            Denotes D 50 (Header.new .universal o.header.constructed o.header.tag o.header.length) c o.content))

/-- One element with the given tag number, whose contents octets are read as those of the universal type `type`.
-/
def TypedBy (D : Deps) (R : Rules) (tag type : Nat) (i rem : Bytes) (o : BerObject) : Prop :=
  ∃ c, FramedBy R i rem o.header c ∧ o.header.tag = tag ∧
    (∀ l, o.header.length = .definite l → l < 2 ^ 32 ∨ (R = .der ∧ type = 3)) ∧
    (R = .der → DerRules type c) ∧
    Denotes D 50 (Header.new .universal o.header.constructed type o.header.length) c o.content

/-- Encodings one after the other up to the end of the octets. -/
inductive Several (P : Bytes → Bytes → BerObject → Prop) : Bytes → List BerObject → Prop
  | nil : Several P [] []
  | cons (i rem : Bytes) (o : BerObject) (os : List BerObject) : P i rem o → Several P rem os →
      Several P i (o :: os)

/-- Compositions that also accept when nothing is there. -/
def _root_.Verif.Schema.isOptional : Schema → Bool
  | .optional _ => true
  | .explicitOptional _ _ => true
  | _ => false

mutual
/-- The octets accepted and the object.  A constructed type is an element with the tag number whose contents
start with the components: the octets after them are ignored for a list of components and for an explicit
tag.  A SEQUENCE OF or SET OF an optional type accepts nothing. -/
def Accepts (D : Deps) (R : Rules) : Schema → Bytes → Bytes → BerObject → Prop
  | .any => AnyBy D R
  | .typed tag => TypedBy D R tag tag
  | .choice tag tags => fun i rem o => ∃ t ∈ tag :: tags, TypedBy D R t t i rem o
  | .sequenceOf s => fun i rem o => ∃ h c vs, FramedBy R i rem h c ∧ h.tag = 16 ∧ s.isOptional = false ∧
      Several (Accepts D R s) c vs ∧ o = .fromSeq vs
  | .setOf s => fun i rem o => ∃ h c vs, FramedBy R i rem h c ∧ h.tag = 17 ∧ s.isOptional = false ∧
      Several (Accepts D R s) c vs ∧ o = .fromSet vs
  | .sequence l => fun i rem o => ∃ h c rem' vs, FramedBy R i rem h c ∧ h.tag = 16 ∧
      AcceptsAll D R l c rem' vs ∧ o = .fromSeq vs
  | .set l => fun i rem o => ∃ h c rem' vs, FramedBy R i rem h c ∧ h.tag = 17 ∧
      AcceptsAll D R l c rem' vs ∧ o = .fromSet vs
  | .explicit tag s => fun i rem o => ∃ h c rem' o', FramedBy R i rem h c ∧ h.cls ≠ .universal ∧ h.tag = tag ∧
      h.constructed = true ∧ Accepts D R s c rem' o' ∧ o = .mk h (.tagged h.cls tag o')
  | .implicit tag type => fun i rem o => TypedBy D R tag type i rem o ∧ o.header.length ≠ .indefinite
  | .optional s => fun i rem o =>
      (∃ o', Accepts D R s i rem o' ∧ o = .mk o'.header (.optionalSome o')) ∨
      ((∀ rem' o', ¬ Accepts D R s i rem' o') ∧ rem = i ∧ o = .fromObj .optionalNone)
  | .explicitOptional tag s => fun i rem o =>
      (∃ h c rem' o', FramedBy .ber i rem h c ∧ h.cls ≠ .universal ∧ h.tag = tag ∧ h.constructed = true ∧
        Accepts D R s c rem' o' ∧ o = .mk h (.optionalSome (.mk h (.tagged h.cls tag o')))) ∨
      ((∀ rem h c rem' o', FramedBy .ber i rem h c → h.cls ≠ .universal → h.tag = tag → h.constructed = true →
        ¬ Accepts D R s c rem' o') ∧ rem = i ∧ o = .fromObj .optionalNone)
/-- The components one after the other. -/
def AcceptsAll (D : Deps) (R : Rules) : List Schema → Bytes → Bytes → List BerObject → Prop
  | [] => fun i rem vs => rem = i ∧ vs = []
  | s :: l => fun i rem vs => ∃ mid v vs', Accepts D R s i mid v ∧ AcceptsAll D R l mid rem vs' ∧ vs = v :: vs'
end

end Verif.Spec
