import Verif.SpecSchema
import Verif.SpecComb
/-!
# Specification of the refusals of composed parsers

What a composition of parsers should answer to octets that it does not accept, by recursion over the composition
and without parsers: `Refuses D R s i x` says that the answer to `i` is the error `x`.
-/
namespace Verif.Spec

/-- No element of any type: octets are missing, or the octets are rejected. -/
def AnyRefused (D : Deps) (R : Rules) (i : Bytes) (x : NomErr BerError) : Prop :=
  match R with
  | .ber => (∃ n, x = .incomplete (.size n) ∧ Cut false 50 i (.need n)) ∨
      ∃ e, x = .error e ∧ Rejected D 50 i e
  | .der => (∃ n, x = .incomplete (.size n) ∧ DerNeeds 50 i n) ∨ ∃ e, x = .error e ∧ DerRejected D 50 i e

/-- No element with the given tag number and contents of the universal type with this number. -/
def TypedRefused (D : Deps) (R : Rules) (tag : Nat) (i : Bytes) (x : NomErr BerError) : Prop :=
  match R with
  | .ber => (∃ n, x = .incomplete (.size n) ∧ TypedNeeds tag i n) ∨ ∃ e, x = .error e ∧ TypedRejected D tag i e
  | .der => (∃ n, x = .incomplete (.size n) ∧ DerTypedNeeds tag i n) ∨
      ∃ e, x = .error e ∧ DerTypedRejected D tag i e

/-- No element, or one with another tag number. -/
def HeadRefused (R : Rules) (tag : Nat) (i : Bytes) (x : NomErr BerError) : Prop :=
  (∃ r, Unframed R i r ∧ x = r.toErr) ∨
    ∃ rem h c, FramedBy R i rem h c ∧ h.tag ≠ tag ∧ x = .error (.unexpectedTag (some tag) h.tag)

/-- The contents octets `c` of an element with header `h`, read as those of the universal type `type`. -/
def ContentsRefused (D : Deps) (R : Rules) (type : Nat) (h : Header) (c : Bytes) (x : NomErr BerError) : Prop :=
  match R with
  | .ber => (∃ n, x = .incomplete (.size n) ∧ ContentsNeeds h.constructed 50 h.length c n) ∨
      ∃ e, x = .error e ∧ ContentsRejected D type h.constructed 50 h.length c e
  | .der => (x = .incomplete (.size 1) ∧ type = 3 ∧ h.constructed = false ∧ c = []) ∨
      ∃ e, x = .error e ∧ DerFails D 50 type h.constructed c [] e

/-- Alternatives: those before the one that decides are answered with `Error`; it decides as the last one, or by
asking for octets. -/
def ChoiceRefused (F : Nat → NomErr BerError → Prop) (tags : List Nat) (x : NomErr BerError) : Prop :=
  ∃ pre t post, tags = pre ++ t :: post ∧ (∀ p ∈ pre, ∃ e, F p (.error e)) ∧ F t x ∧
    (post = [] ∨ ∃ n, x = .incomplete n)

/-- Items from the front of `c`, of at least one octet each; `q` is left. -/
inductive Before (P : Bytes → Bytes → BerObject → Prop) : Bytes → Bytes → Prop
  | nil (q : Bytes) : Before P q q
  | cons (i rem : Bytes) (v : BerObject) (q : Bytes) : P i rem v → rem.length < i.length → Before P rem q →
      Before P i q

/-- Items of a SEQUENCE OF or SET OF: the first one that is not accepted decides.  An item that is rejected is
final; an item cut by the end of the contents is blamed on the end of the input; so is an item without octets,
with another error. -/
def ItemsRefused (P : Bytes → Bytes → BerObject → Prop) (F : Bytes → NomErr BerError → Prop) (c : Bytes)
    (x : NomErr BerError) : Prop :=
  ∃ q, Before P c q ∧
    ((∃ e, (F q (.error e) ∨ F q (.failure e)) ∧ x = .failure e) ∨
      (q ≠ [] ∧ (∃ n, F q (.incomplete n)) ∧ x = .error (.nomError .eof)) ∨
      ((∃ rem v, P q rem v ∧ rem.length = q.length) ∧ x = .error (.nomError .many0)))

mutual
/-- The octets refused and the error.  Optional parts refuse nothing. -/
def Refuses (D : Deps) (R : Rules) : Schema → Bytes → NomErr BerError → Prop
  | .any => AnyRefused D R
  | .typed tag => TypedRefused D R tag
  | .choice tag tags => fun i x => ChoiceRefused (fun t => TypedRefused D R t i) (tag :: tags) x
  | .sequenceOf s => fun i x => HeadRefused R 16 i x ∨
      ∃ rem h c, FramedBy R i rem h c ∧ h.tag = 16 ∧ ItemsRefused (Accepts D R s) (Refuses D R s) c x
  | .setOf s => fun i x => HeadRefused R 17 i x ∨
      ∃ rem h c, FramedBy R i rem h c ∧ h.tag = 17 ∧ ItemsRefused (Accepts D R s) (Refuses D R s) c x
  | .sequence l => fun i x => HeadRefused R 16 i x ∨
      ∃ rem h c, FramedBy R i rem h c ∧ h.tag = 16 ∧ RefusesAll D R l c x
  | .set l => fun i x => HeadRefused R 17 i x ∨
      ∃ rem h c, FramedBy R i rem h c ∧ h.tag = 17 ∧ RefusesAll D R l c x
  | .explicit tag s => fun i x => (∃ r, Unframed R i r ∧ x = r.toErr) ∨
      ∃ rem h c, FramedBy R i rem h c ∧
        ((h.cls = .universal ∧ x = .error (.unexpectedClass none .universal)) ∨
          (h.cls ≠ .universal ∧ h.tag ≠ tag ∧ x = .error (.unexpectedTag (some tag) h.tag)) ∨
          (h.cls ≠ .universal ∧ h.tag = tag ∧ h.constructed = false ∧ x = .error .constructExpected) ∨
          (h.cls ≠ .universal ∧ h.tag = tag ∧ h.constructed = true ∧ Refuses D R s c x))
  | .implicit tag type => fun i x => HeadRefused R tag i x ∨
      ∃ rem h c, FramedBy R i rem h c ∧ h.tag = tag ∧ ContentsRefused D R type h c x
  | .optional _ => fun _ _ => False
  | .explicitOptional _ _ => fun _ _ => False
/-- The first component that is not accepted decides. -/
def RefusesAll (D : Deps) (R : Rules) : List Schema → Bytes → NomErr BerError → Prop
  | [] => fun _ _ => False
  | s :: l => fun i x => Refuses D R s i x ∨ ∃ mid v, Accepts D R s i mid v ∧ RefusesAll D R l mid x
end

end Verif.Spec
