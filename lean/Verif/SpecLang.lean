import Verif.Lang
import Verif.SpecSchemaFail
import Verif.Props.Integers
/-!
# Specification of every program written with the library

What a program accepts, with which value and rest, and what it refuses, with which error: relations between octets and
values by recursion over the program, without parsers.
-/
namespace Verif.Spec

/-- What a program accepts (`gives i rem a`: from the input `i` the value `a`, and `rem` is left) and what it refuses. -/
structure Meaning (E α : Type) where
  gives : Bytes → Bytes → α → Prop
  refuses : Bytes → NomErr E → Prop

/-! ## The functions without closure -/

/-- The contents cannot be delimited, with `d` levels, for the form and the length found in a header: no level is left;
octets are missing; an indefinite length in primitive form; an element inside an indefinite length is cut or rejected. -/
inductive Undelimited (k : Bool) : Nat → Length → Bytes → NomErr BerError → Prop
  | depth (L : Length) (i : Bytes) : Undelimited k 0 L i (.error .berMaxDepth)
  | definite (d l : Nat) (i : Bytes) : i.length < l →
      Undelimited k (d + 1) (.definite l) i (.incomplete (.size (l - i.length)))
  | primitive (d : Nat) (i : Bytes) : k = false → Undelimited k (d + 1) .indefinite i (.error .constructExpected)
  | cut (d : Nat) (es : List Bytes) (q : Bytes) (n : Nat) : k = true →
      (∀ x ∈ es, Element LooseEoc LooseEoc d x) → Cut false d q (.need n) →
      Undelimited k (d + 1) .indefinite (es.flatten ++ q) (.incomplete (.size n))
  | inside (d : Nat) (es : List Bytes) (q : Bytes) (e : BerError) : k = true →
      (∀ x ∈ es, Element LooseEoc LooseEoc d x) → FrameFails d q e →
      Undelimited k (d + 1) .indefinite (es.flatten ++ q) (.error e)

/-- Contents of the universal type `tag` under the rules of DER, for the form and the length found in a header. -/
def DerContents (D : Deps) (tag d : Nat) (h : Header) (i rem : Bytes) (x : Content) : Prop :=
  ∃ c, i = c ++ rem ∧ h.length = .definite c.length ∧ DerRules tag c ∧ (tag = 3 ∨ c.length < 2 ^ 32) ∧
    Denotes D (if tag = 3 then d + 1 else d) (Header.new .universal h.constructed tag h.length) c x

/-- Contents of the universal type `tag` that a DER reader refuses. -/
def DerContentsRefused (D : Deps) (tag d : Nat) (h : Header) (i : Bytes) (x : NomErr BerError) : Prop :=
  (∃ n, x = .incomplete (.size n) ∧ ((h.length = .definite n ∧ i.length < n) ∨
      (tag = 3 ∧ h.constructed = false ∧ i = [] ∧ h.length = .definite 0 ∧ n = 1))) ∨
    ∃ e, x = .error e ∧ ((h.length = .indefinite ∧ e = .indefiniteLengthUnexpected) ∨
      ∃ c rest, i = c ++ rest ∧ h.length = .definite c.length ∧ DerFails D d tag h.constructed c rest e)

/-- No element for a native integer: the element cannot be delimited. -/
def IntUnframed : Rules → Bytes → NomErr BerError → Prop
  | .ber, i, x => (∃ n, x = .incomplete (.size n) ∧ Cut false 50 i (.need n)) ∨ ∃ e, x = .error e ∧ FrameFails 50 i e
  | .der, i, x => (∃ n, x = .incomplete (.size n) ∧ HeaderCut false i (.need n)) ∨
      (∃ e, x = .error e ∧ HeaderFails derIndefinite i e) ∨
      ∃ hb c h l, i = hb ++ c ∧ DerHeader hb h ∧ h.length = .definite l ∧ c.length < l ∧
        x = .incomplete (.size (l - c.length))

/-- What is wrong with an element for a native integer before its value is looked at.  BER looks at the tag and then at
the form; DER at the form, at the rule for the first nine bits, and then at the tag. -/
def intFault (R : Rules) (h : Header) (c : Bytes) : Option BerError :=
  match R with
  | .ber =>
    if h.tag ≠ 2 then some (.unexpectedTag (some 2) h.tag)
    else if h.constructed = true then some .constructUnexpected
    else none
  | .der =>
    if h.constructed = true then some .constructUnexpected
    else if c = [] then some (.derConstraintFailed .integerEmpty)
    else if (bitsOf c).take 9 = List.replicate 9 false then some (.derConstraintFailed .integerLeadingZeroes)
    else if (bitsOf c).take 9 = List.replicate 9 true then some (.derConstraintFailed .integerLeadingFF)
    else if h.tag ≠ 2 then some (.unexpectedTag (some 2) h.tag)
    else none

/-- What is wrong with the value for an unsigned integer of `n` octets. -/
def unsignedFault (n : Nat) (c : Bytes) : Option BerError :=
  if twosComplement c < 0 then some .integerNegative
  else if (2 ^ (8 * n) : Nat) ≤ twosComplement c then some .integerTooLarge
  else none

/-- What is wrong with the value for a signed integer of `n` octets. -/
def signedFault (n : Nat) (c : Bytes) : Option BerError :=
  if -(2 ^ (8 * n - 1) : Nat) ≤ twosComplement c ∧ twosComplement c < (2 ^ (8 * n - 1) : Nat) then none
  else some .integerTooLarge

/-- What the functions without closure accept. -/
def PrimGives (D : Deps) : {α : Type} → Prim α → Bytes → Bytes → α → Prop
  | _, .any .ber d => fun i rem o => ∃ c, FramedBy .ber i rem o.header c ∧ Denotes D d o.header c o.content
  | _, .any .der d => fun i rem o => ∃ c, FramedBy .der i rem o.header c ∧ c.length < 2 ^ 32 ∧
      ((o.header.cls ≠ .universal ∧ 0 < d ∧ o.content = .unknown ⟨o.header, c⟩) ∨
        (o.header.cls = .universal ∧ DerRules o.header.tag c ∧
          Denotes D (if o.header.tag = 3 then d + 1 else d)
            (Header.new .universal o.header.constructed o.header.tag o.header.length) c o.content))
  | _, .typed R tag => TypedBy D R tag tag
  | _, .uint R w => fun i rem v => ∃ e c, i = e ++ rem ∧ IntElement e c ∧ (R = .der → MinimalInt c) ∧
      twosComplement c = v ∧ v < 2 ^ (8 * w.octets)
  | _, .int R w => fun i rem v => ∃ e c, i = e ++ rem ∧ IntElement e c ∧ (R = .der → MinimalInt c) ∧
      twosComplement c = v ∧ -(2 ^ (8 * w.octets - 1) : Nat) ≤ v ∧ v < (2 ^ (8 * w.octets - 1) : Nat)
  | _, .slice R tag => fun i rem c => ∃ h, FramedBy R i rem h c ∧ h.tag = tag
  | _, .rawAny => fun i rem a => FramedBy .ber i rem a.header a.data
  | _, .header R => fun i rem h => ∃ hb, i = hb ++ rem ∧ HeaderBy R hb h
  | _, .content .ber tag h d => fun i rem x => ∃ c, Delimited h.constructed d h.length i c rem ∧
      (∀ l, h.length = .definite l → l < 2 ^ 32) ∧
      Denotes D d (Header.new .universal h.constructed tag h.length) c x
  | _, .content .der tag h d => DerContents D tag d h
  | _, .element h => fun i rem o => o.header = h ∧
      ((h.cls ≠ .universal ∧ ∃ c, Delimited h.constructed 50 h.length i c rem ∧ o.content = .unknown ⟨h, c⟩) ∨
        (h.cls = .universal ∧ DerContents D h.tag 50 h i rem o.content))

/-- What the functions without closure refuse. -/
def PrimRefuses (D : Deps) : {α : Type} → Prim α → Bytes → NomErr BerError → Prop
  | _, .any .ber d => fun i x => (∃ n, x = .incomplete (.size n) ∧ 0 < d ∧ Cut false 50 i (.need n)) ∨
      ∃ e, x = .error e ∧ Rejected D d i e
  | _, .any .der d => fun i x => (∃ n, x = .incomplete (.size n) ∧ DerNeeds d i n) ∨
      ∃ e, x = .error e ∧ DerRejected D d i e
  | _, .typed R tag => TypedRefused D R tag
  | _, .uint R w => fun i x => IntUnframed R i x ∨ ∃ rem h c e, FramedBy R i rem h c ∧ x = .error e ∧
      (intFault R h c = some e ∨ (intFault R h c = none ∧ unsignedFault w.octets c = some e))
  | _, .int R w => fun i x => IntUnframed R i x ∨ ∃ rem h c e, FramedBy R i rem h c ∧ x = .error e ∧
      (intFault R h c = some e ∨ (intFault R h c = none ∧ signedFault w.octets c = some e))
  | _, .slice R tag => HeadRefused R tag
  | _, .rawAny => IntUnframed .ber
  | _, .header R => fun i x => (∃ n, x = .incomplete (.size n) ∧ HeaderCut false i (.need n)) ∨
      ∃ e, x = .error e ∧ HeaderFails (indefiniteBy R) i e
  | _, .content .ber tag h d => fun i x =>
      (∃ n, x = .incomplete (.size n) ∧ ContentsNeeds h.constructed d h.length i n) ∨
      ∃ e, x = .error e ∧ ContentsRejected D tag h.constructed d h.length i e
  | _, .content .der tag h d => DerContentsRefused D tag d h
  | _, .element h => fun i x => (h.cls ≠ .universal ∧ Undelimited h.constructed 50 h.length i x) ∨
      (h.cls = .universal ∧ DerContentsRefused D h.tag 50 h i x)

/-! ## The combinators -/

/-- Values one after the other from the front of the octets, each from at least one octet; `q` is left. -/
inductive Row {α : Type} (P : Bytes → Bytes → α → Prop) : Bytes → List α → Bytes → Prop
  | nil (q : Bytes) : Row P q [] q
  | cons (i rem : Bytes) (v : α) (vs : List α) (q : Bytes) : P i rem v → rem.length < i.length → Row P rem vs q →
      Row P i (v :: vs) q

section
variable {E : Type} [ParseErr E]

/-- An element whose header has the property `P` before its contents are looked at; `bad` gives the error for the
others. -/
def inElement {α : Type} (R : Rules) (bad : Header → Option BerError) (M : Header → Meaning E α) : Meaning E α where
  gives i rem a := ∃ h c rem', FramedBy R i rem h c ∧ bad h = none ∧ (M h).gives c rem' a
  refuses i x := (∃ r, Unframed R i r ∧ x = r.toErr) ∨ ∃ rem h c, FramedBy R i rem h c ∧
    ((∃ e, bad h = some e ∧ x = .error (ParseErr.ofBer e)) ∨ (bad h = none ∧ (M h).refuses c x))

/-- Another tag number. -/
def badTag (tag : Nat) (h : Header) : Option BerError :=
  if h.tag = tag then none else some (.unexpectedTag (some tag) h.tag)

/-- An explicit tag is not of universal class, has its number, and is constructed. -/
def badExplicit (tag : Nat) (h : Header) : Option BerError :=
  if h.cls = .universal then some (.unexpectedClass none .universal)
  else if h.tag ≠ tag then some (.unexpectedTag (some tag) h.tag)
  else if h.constructed = false then some .constructExpected
  else none

/-- Values up to the end of the octets: at the end the program asks for more octets.  An `Error` inside is final; octets
missing inside are blamed on the end of the octets; so is a value without octets, with another error. -/
def untilEnd {α : Type} (M : Meaning E α) : Meaning E (List α) where
  gives i rem vs := rem = [] ∧ Row M.gives i vs [] ∧ ∃ n, M.refuses [] (.incomplete n)
  refuses i x := ∃ vs q, Row M.gives i vs q ∧
    ((∃ e, (M.refuses q (.error e) ∨ M.refuses q (.failure e)) ∧ x = .failure e) ∨
      (q ≠ [] ∧ (∃ n, M.refuses q (.incomplete n)) ∧ x = .error (ParseErr.ofKind q .eof)) ∨
      ((∃ rem v, M.gives q rem v ∧ rem.length = q.length) ∧ x = .error (ParseErr.ofKind q .many0)))

/-- Values as long as there is no `Error`.  A value without octets is an error. -/
def asLong {α : Type} (M : Meaning E α) : Meaning E (List α) where
  gives i rem vs := Row M.gives i vs rem ∧ ∃ e, M.refuses rem (.error e)
  refuses i x := ∃ vs q, Row M.gives i vs q ∧
    ((M.refuses q x ∧ ∀ e, x ≠ .error e) ∨
      ((∃ rem v, M.gives q rem v ∧ rem.length = q.length) ∧ x = .error (ParseErr.ofKind q .many0)))

/-- The meaning of a program. -/
def _root_.Verif.Prog.meaning (D : Deps) : {α : Type} → Prog E α → Meaning E α
  | _, .value x => ⟨fun i rem a => rem = i ∧ x = .ok a, fun _ e => x = .err e⟩
  | _, .bind p f =>
    ⟨fun i rem b => ∃ mid a, (p.meaning D).gives i mid a ∧ ((f a).meaning D).gives mid rem b,
     fun i x => (p.meaning D).refuses i x ∨ ∃ mid a, (p.meaning D).gives i mid a ∧ ((f a).meaning D).refuses mid x⟩
  | _, .prim p => ⟨PrimGives D p, fun i x => ∃ y, PrimRefuses D p i y ∧ x = y.map ParseErr.ofBer⟩
  | _, .container R f => inElement R (fun _ => none) fun h => (f h).meaning D
  | _, .defined R tag f => inElement R (badTag tag) fun h => (f h).meaning D
  | _, .explicit R tag f => inElement R (badExplicit tag) fun h => (f h).meaning D
  | _, .implicit R tag f => inElement R (badTag tag) fun h => (f h 50).meaning D
  | _, .several R tag p => inElement R (badTag tag) fun _ => untilEnd (p.meaning D)
  | _, .within b p => ⟨fun i rem a => rem = i ∧ ∃ r, (p.meaning D).gives b r a, fun _ x => (p.meaning D).refuses b x⟩
  | _, .attempt p =>
    ⟨fun i rem o => (∃ a, (p.meaning D).gives i rem a ∧ o = some a) ∨
        (rem = i ∧ o = none ∧ ∃ x, (p.meaning D).refuses i x),
     fun _ _ => False⟩
  | _, .opt p =>
    ⟨fun i rem o => (∃ a, (p.meaning D).gives i rem a ∧ o = some a) ∨
        (rem = i ∧ o = none ∧ ∃ e, (p.meaning D).refuses i (.error e)),
     fun i x => (p.meaning D).refuses i x ∧ ∀ e, x ≠ .error e⟩
  | _, .orElse p q =>
    ⟨fun i rem a => (p.meaning D).gives i rem a ∨
        ((∃ e, (p.meaning D).refuses i (.error e)) ∧ (q.meaning D).gives i rem a),
     fun i x => ((p.meaning D).refuses i x ∧ ∀ e, x ≠ .error e) ∨
        ((∃ e, (p.meaning D).refuses i (.error e)) ∧ (q.meaning D).refuses i x)⟩
  | _, .many p => asLong (p.meaning D)
  | _, .complete p =>
    ⟨(p.meaning D).gives,
     fun i x => ((p.meaning D).refuses i x ∧ ∀ n, x ≠ .incomplete n) ∨
        ((∃ n, (p.meaning D).refuses i (.incomplete n)) ∧ x = .error (ParseErr.ofKind i .complete))⟩
  | _, .cut p =>
    ⟨(p.meaning D).gives,
     fun i x => ((p.meaning D).refuses i x ∧ ∀ e, x ≠ .error e) ∨
        ∃ e, (p.meaning D).refuses i (.error e) ∧ x = .failure e⟩
  | _, .allConsuming p =>
    ⟨fun i rem a => rem = [] ∧ (p.meaning D).gives i [] a,
     fun i x => (p.meaning D).refuses i x ∨
        ∃ rem a, (p.meaning D).gives i rem a ∧ rem ≠ [] ∧ x = .error (ParseErr.ofKind rem .eof)⟩
  | _, .eof => ⟨fun i rem _ => i = [] ∧ rem = [], fun i x => i ≠ [] ∧ x = .error (ParseErr.ofKind i .eof)⟩

end

end Verif.Spec
