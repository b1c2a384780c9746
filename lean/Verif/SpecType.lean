import Verif.SpecValue
import Verif.SpecSchema
import Verif.SpecDer
/-!
# Specification: values of an ASN.1 type and their encodings

The compositions of parsers (`Schema`) are read here as ASN.1 types: which values a type has, what octets encode a value of
the type, and what it is for an object to answer with such a value.  Written without parsers and without `Accepts`.
-/
namespace Verif.Spec

/-- Values of the types described by `Schema`: a value without components of its own type, a value with another tag
(IMPLICIT), the components of a SEQUENCE or SET, a value inside of another tag (EXPLICIT), an OPTIONAL component. -/
inductive TValue where
  | plain (v : Value)
  | retagged (cls : Class) (tag : Nat) (v : Value)
  | sequence (ts : List TValue)
  | set (ts : List TValue)
  | tagged (cls : Class) (tag : Nat) (t : TValue)
  | present (t : TValue)
  | absent

/-- Encodings of a value: BER, and for DER also those restrictions that are enforced.  As everywhere with values (C123),
strings are in one piece, tag numbers have 32 bits, and so on (`Readable`). -/
def ValueBy (D : Deps) (R : Rules) (v : Value) (e : Bytes) : Prop :=
  Codes D LooseEoc Readable 50 50 50 v e ∧ (R = .der → DerDoc (Supported D) 50 e)

/-- A constructed element around contents octets, with the tag: identifier, length and contents, or for BER with an indefinite
length, in which case the contents are elements. -/
inductive Around (R : Rules) (cls : Class) (tag : Nat) (c : Bytes) : Bytes → Prop
  | definite (id len : Bytes) : tag < 2 ^ 32 → MinIdent id cls true tag → LenOctets len (.definite c.length) →
      Around R cls tag c (id ++ (len ++ c))
  | indefinite (id : Bytes) (es : List Bytes) : R = .ber → tag < 2 ^ 32 → MinIdent id cls true tag →
      c = es.flatten → (∀ x ∈ es, Element LooseEoc LooseEoc 49 x) → Around R cls tag c (id ++ 0x80 :: (c ++ [0, 0]))

/-- The same contents octets with a definite length and another tag: a value of a universal type (`num`) with an IMPLICIT tag
(X.690 8.14.3). -/
def Retagged (num : Nat) (cls : Class) (tag : Nat) (e₀ e : Bytes) : Prop :=
  ∃ id₀ id len c k, e₀ = id₀ ++ (len ++ c) ∧ e = id ++ (len ++ c) ∧ MinIdent id₀ .universal k num ∧
    cls ≠ .universal ∧ tag < 2 ^ 32 ∧ MinIdent id cls k tag ∧ LenOctets len (.definite c.length)

/-- Encodings one after the other. -/
inductive Each (P : TValue → Bytes → Prop) : List TValue → Bytes → Prop
  | nil : Each P [] []
  | cons (t : TValue) (ts : List TValue) (e c : Bytes) : P t e → Each P ts c → Each P (t :: ts) (e ++ c)

mutual
/-- `TypeCodes D R s t e`: the octets `e` encode the value `t` of the type `s`.  The components of a SET are in the order of
the type (BER allows any order, X.690 8.11.3; DER asks for the order of the tags). -/
def TypeCodes (D : Deps) (R : Rules) : Schema → TValue → Bytes → Prop
  | .any => fun t e => ∃ v, t = .plain v ∧ ValueBy D R v e
  | .typed tag => fun t e => ∃ v, t = .plain v ∧ ValueBy D R v e ∧ v.cls = .universal ∧ v.num = tag
  | .choice tag tags => fun t e => ∃ v, t = .plain v ∧ ValueBy D R v e ∧ v.cls = .universal ∧ v.num ∈ tag :: tags
  | .implicit tag type => fun t e => ∃ v e₀ cls, t = .retagged cls tag v ∧ ValueBy D R v e₀ ∧ v.cls = .universal ∧
      v.num = type ∧ Retagged type cls tag e₀ e
  | .sequenceOf s => fun t e => ∃ ts c, t = .sequence ts ∧ Each (TypeCodes D R s) ts c ∧ Around R .universal 16 c e
  | .setOf s => fun t e => ∃ ts c, t = .set ts ∧ Each (TypeCodes D R s) ts c ∧ Around R .universal 17 c e
  | .sequence l => fun t e => ∃ ts c, t = .sequence ts ∧ TypeCodesAll D R l ts c ∧ Around R .universal 16 c e
  | .set l => fun t e => ∃ ts c, t = .set ts ∧ TypeCodesAll D R l ts c ∧ Around R .universal 17 c e
  | .explicit tag s => fun t e => ∃ t' c cls, t = .tagged cls tag t' ∧ cls ≠ .universal ∧ TypeCodes D R s t' c ∧
      Around R cls tag c e
  | .optional s => fun t e => (t = .absent ∧ e = []) ∨ ∃ t', t = .present t' ∧ TypeCodes D R s t' e
  | .explicitOptional tag s => fun t e => (t = .absent ∧ e = []) ∨
      ∃ t' c cls, t = .present (.tagged cls tag t') ∧ cls ≠ .universal ∧ TypeCodes D R s t' c ∧ Around R cls tag c e
/-- The components one after the other. -/
def TypeCodesAll (D : Deps) (R : Rules) : List Schema → List TValue → Bytes → Prop
  | [] => fun ts c => ts = [] ∧ c = []
  | s :: l => fun ts c => ∃ t ts' e c', ts = t :: ts' ∧ c = e ++ c' ∧ TypeCodes D R s t e ∧ TypeCodesAll D R l ts' c'
end

mutual
/-- Values of a type, whatever their encodings. -/
def OfType : Schema → TValue → Prop
  | .any => fun t => ∃ v, t = .plain v
  | .typed tag => fun t => ∃ v, t = .plain v ∧ v.cls = .universal ∧ v.num = tag
  | .choice tag tags => fun t => ∃ v, t = .plain v ∧ v.cls = .universal ∧ v.num ∈ tag :: tags
  | .implicit tag type => fun t => ∃ v cls, t = .retagged cls tag v ∧ v.cls = .universal ∧ v.num = type ∧ cls ≠ .universal
  | .sequenceOf s => fun t => ∃ ts, t = .sequence ts ∧ ∀ x ∈ ts, OfType s x
  | .setOf s => fun t => ∃ ts, t = .set ts ∧ ∀ x ∈ ts, OfType s x
  | .sequence l => fun t => ∃ ts, t = .sequence ts ∧ OfTypes l ts
  | .set l => fun t => ∃ ts, t = .set ts ∧ OfTypes l ts
  | .explicit tag s => fun t => ∃ t' cls, t = .tagged cls tag t' ∧ cls ≠ .universal ∧ OfType s t'
  | .optional s => fun t => t = .absent ∨ ∃ t', t = .present t' ∧ OfType s t'
  | .explicitOptional tag s => fun t => t = .absent ∨
      ∃ t' cls, t = .present (.tagged cls tag t') ∧ cls ≠ .universal ∧ OfType s t'
/-- The components one by one. -/
def OfTypes : List Schema → List TValue → Prop
  | [] => fun ts => ts = []
  | s :: l => fun ts => ∃ t ts', ts = t :: ts' ∧ OfType s t ∧ OfTypes l ts'
end

/-- Tags with which an encoding of a type begins, if it is not empty: whether the class is universal, and the number. -/
def _root_.Verif.Schema.Tags : Schema → Bool → Nat → Prop
  | .any => fun _ _ => True
  | .typed tag => fun u n => u = true ∧ n = tag
  | .choice tag tags => fun u n => u = true ∧ n ∈ tag :: tags
  | .implicit tag _ => fun u n => u = false ∧ n = tag
  | .sequenceOf _ | .sequence _ => fun u n => u = true ∧ n = 16
  | .setOf _ | .set _ => fun u n => u = true ∧ n = 17
  | .explicit tag _ | .explicitOptional tag _ => fun u n => u = false ∧ n = tag
  | .optional s => s.Tags

/-- Tags that the functions may take for those of the type: the class is looked at for explicit tags only. -/
def _root_.Verif.Schema.Sees (s : Schema) (u : Bool) (n : Nat) : Prop :=
  match s with
  | .explicit tag _ | .explicitOptional tag _ | .optional (.explicit tag _) => u = false ∧ n = tag
  | s => ∃ u', s.Tags u' n

/-- Tags with which a list of components can begin. -/
def FirstTags : List Schema → Bool → Nat → Prop
  | [] => fun _ _ => False
  | s :: l => fun u n => s.Tags u n ∨ (s.isOptional = true ∧ FirstTags l u n)

mutual
/-- Types whose parts can be told from each other: what follows an OPTIONAL component does not begin with a tag that belongs
to this component (`T`; X.680 25.6 asks for different tags); and only a component of a SEQUENCE or SET or what is inside of
a tag is OPTIONAL, and only once. -/
def _root_.Verif.Schema.Apart (T : Schema → Bool → Nat → Prop) : Schema → Prop
  | .any | .typed _ | .choice _ _ | .implicit _ _ => True
  | .sequenceOf s | .setOf s => s.isOptional = false ∧ s.Apart T
  | .sequence l | .set l => ApartAll T l
  | .explicit _ s | .explicitOptional _ s => s.Apart T
  | .optional s => s.isOptional = false ∧ s.Apart T
/-- The same for a list of components. -/
def ApartAll (T : Schema → Bool → Nat → Prop) : List Schema → Prop
  | [] => True
  | s :: l => s.Apart T ∧ (s.isOptional = true → ∀ u n, FirstTags l u n → ¬ T s u n) ∧ ApartAll T l
end

/-- The octets do not begin with a tag of the type. -/
def Away (T : Schema → Bool → Nat → Prop) (s : Schema) (i : Bytes) : Prop :=
  ∀ hb r h, i = hb ++ r → BerHeader hb h → ¬ T s (decide (h.cls = .universal)) h.tag

/-- The object with the tag of a universal type in its header. -/
def untagged (num : Nat) : BerObject → BerObject
  | .mk h x => .mk (Header.new .universal h.constructed num h.length) x

/-- The accessors of the object answer with the value: `as_sequence`, `as_set` (or iteration), `as_tagged`, `as_optional`, and
those of C123 for the values inside. -/
inductive HasT : BerObject → TValue → Prop
  | plain (o : BerObject) (v : Value) : HasValue o v → HasT o (.plain v)
  | retagged (o : BerObject) (cls : Class) (tag : Nat) (v : Value) : o.header.cls = cls → o.header.tag = tag →
      HasValue (untagged v.num o) v → HasT o (.retagged cls tag v)
  | sequence (o : BerObject) (ps : List (BerObject × TValue)) : o.header.cls = .universal → o.header.tag = 16 →
      o.content.asSequence = .ok (ps.map Prod.fst) → (∀ p ∈ ps, HasT p.1 p.2) → HasT o (.sequence (ps.map Prod.snd))
  | set (o : BerObject) (ps : List (BerObject × TValue)) : o.header.cls = .universal → o.header.tag = 17 →
      o.content.asSet = .ok (ps.map Prod.fst) → (∀ p ∈ ps, HasT p.1 p.2) → HasT o (.set (ps.map Prod.snd))
  | tagged (o o' : BerObject) (cls : Class) (tag : Nat) (t : TValue) :
      o.content.asTagged = .ok (cls, tag, o') → HasT o' t → HasT o (.tagged cls tag t)
  | present (o o' : BerObject) (t : TValue) : o.content.asOptional = .ok (some o') → HasT o' t → HasT o (.present t)
  | absent (o : BerObject) : o.content.asOptional = .ok none → HasT o .absent

end Verif.Spec
