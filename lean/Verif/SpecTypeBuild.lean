import Verif.SpecType
import Verif.SpecBuild
/-!
# Specification: objects that a program builds for a value of an ASN.1 type
-/
namespace Verif.Spec

/-- `BuiltT L s t o`: a program builds the object `o` for the value `t` of the type `s`.  Objects for values without
components of their own type are related by `L` (see `Built`).  An object with an implicit tag is made of the contents of one
(`from_header_and_content` with a header of the tag and the same form), one with an explicit tag is `Tagged`, a present
OPTIONAL value is wrapped in `Optional` with its header or left as it is.  An absent component is left out of the SEQUENCE or
SET.  Lengths and raw tags in the headers are arbitrary; the tag numbers are at most 30. -/
inductive BuiltT (L : Value → BerObject → Prop) : Schema → TValue → BerObject → Prop
  | any (v : Value) (o : BerObject) : L v o → BuiltT L .any (.plain v) o
  | typed (v : Value) (o : BerObject) : v.cls = .universal → L v o → BuiltT L (.typed v.num) (.plain v) o
  | choice (tag : Nat) (tags : List Nat) (v : Value) (o : BerObject) : v.cls = .universal → v.num ∈ tag :: tags → L v o →
      BuiltT L (.choice tag tags) (.plain v) o
  | implicit (tag : Nat) (cls : Class) (v : Value) (h₀ : Header) (x : Content) (len : Length) (raw : Option Bytes) :
      v.cls = .universal → cls ≠ .universal → tag ≤ 30 → L v (.mk h₀ x) →
      BuiltT L (.implicit tag v.num) (.retagged cls tag v) (.mk ⟨cls, h₀.constructed, tag, len, raw⟩ x)
  | sequenceOf (s : Schema) (ps : List (TValue × BerObject)) : (∀ p ∈ ps, BuiltT L s p.1 p.2) →
      BuiltT L (.sequenceOf s) (.sequence (ps.map Prod.fst)) (.fromSeq (ps.map Prod.snd))
  | setOf (s : Schema) (ps : List (TValue × BerObject)) : (∀ p ∈ ps, BuiltT L s p.1 p.2) →
      BuiltT L (.setOf s) (.set (ps.map Prod.fst)) (.fromSet (ps.map Prod.snd))
  | sequence (ps : List (Schema × TValue × Option BerObject)) :
      (∀ p ∈ ps, ∀ o, p.2.2 = some o → BuiltT L p.1 p.2.1 o) →
      (∀ p ∈ ps, p.2.2 = none → p.1.isOptional = true ∧ p.2.1 = .absent) →
      BuiltT L (.sequence (ps.map (·.1))) (.sequence (ps.map (·.2.1))) (.fromSeq (ps.filterMap (·.2.2)))
  | set (ps : List (Schema × TValue × Option BerObject)) :
      (∀ p ∈ ps, ∀ o, p.2.2 = some o → BuiltT L p.1 p.2.1 o) →
      (∀ p ∈ ps, p.2.2 = none → p.1.isOptional = true ∧ p.2.1 = .absent) →
      BuiltT L (.set (ps.map (·.1))) (.set (ps.map (·.2.1))) (.fromSet (ps.filterMap (·.2.2)))
  | explicit (tag : Nat) (cls : Class) (s : Schema) (t : TValue) (o : BerObject) (len : Length) (raw : Option Bytes) :
      cls ≠ .universal → tag ≤ 30 → BuiltT L s t o →
      BuiltT L (.explicit tag s) (.tagged cls tag t) (.mk ⟨cls, true, tag, len, raw⟩ (.tagged cls tag o))
  | optional (s : Schema) (t : TValue) (o : BerObject) : BuiltT L s t o →
      BuiltT L (.optional s) (.present t) (.mk o.header (.optionalSome o))
  | optionalBare (s : Schema) (t : TValue) (o : BerObject) : BuiltT L s t o → BuiltT L (.optional s) (.present t) o
  | explicitOptional (tag : Nat) (cls : Class) (s : Schema) (t : TValue) (o : BerObject) (len : Length) (raw : Option Bytes) :
      cls ≠ .universal → tag ≤ 30 → BuiltT L s t o →
      BuiltT L (.explicitOptional tag s) (.present (.tagged cls tag t)) (.mk ⟨cls, true, tag, len, raw⟩ (.tagged cls tag o))

end Verif.Spec
