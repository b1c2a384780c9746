import Verif.Named
import Verif.Tests
import Verif.Props.Contents
import Verif.Props.Der
import Verif.Props.Values
/-!
# Named parsers, accessors, equality, bit slices: C64 to C67
-/
namespace Verif
open Outcome Spec

/-! ## C64 -/

namespace Spec

/-- Universal tag number of a type, X.680 table 1. -/
def typeNumber : TypeName → Nat
  | .endofcontent => 0 | .bool => 1 | .integer => 2 | .bitstring => 3 | .octetstring => 4
  | .null => 5 | .oid => 6 | .objectdescriptor => 7 | .enum => 10 | .utf8string => 12
  | .relativeOid => 13 | .sequence => 16 | .set => 17 | .numericstring => 18
  | .printablestring => 19 | .t61string => 20 | .videotexstring => 21 | .ia5string => 22
  | .utctime => 23 | .generalizedtime => 24 | .graphicstring => 25 | .visiblestring => 26
  | .generalstring => 27 | .universalstring => 28 | .bmpstring => 30

/-- The content variant of a type. -/
def HasType : TypeName → Content → Prop
  | .endofcontent, c => c = .endOfContent
  | .bool, c => ∃ b, c = .boolean b
  | .integer, c => ∃ s, c = .integer s
  | .bitstring, c => ∃ u s, c = .bitString u s
  | .octetstring, c => ∃ s, c = .octetString s
  | .null, c => c = .null
  | .oid, c => ∃ s, c = .oid s
  | .objectdescriptor, c => ∃ s, c = .str .objectDescriptor s
  | .enum, c => ∃ n, c = .enum n
  | .utf8string, c => ∃ s, c = .str .utf8 s
  | .relativeOid, c => ∃ s, c = .relativeOid s
  | .sequence, c => ∃ l, c = .sequence l
  | .set, c => ∃ l, c = .set l
  | .numericstring, c => ∃ s, c = .str .numeric s
  | .printablestring, c => ∃ s, c = .str .printable s
  | .t61string, c => ∃ s, c = .str .t61 s
  | .videotexstring, c => ∃ s, c = .str .videotex s
  | .ia5string, c => ∃ s, c = .str .ia5 s
  | .utctime, c => ∃ t, c = .utcTime t
  | .generalizedtime, c => ∃ t, c = .generalizedTime t
  | .graphicstring, c => ∃ s, c = .str .graphic s
  | .visiblestring, c => ∃ s, c = .str .visible s
  | .generalstring, c => ∃ s, c = .str .general s
  | .universalstring, c => ∃ s, c = .universalString s
  | .bmpstring, c => ∃ s, c = .bmpString s

end Spec

theorem parseBerNamed_eq (D : Deps) (t : TypeName) :
    parseBerNamed D t = parseBerWithTag D (typeNumber t) := by cases t <;> rfl

theorem parseDerNamed_eq (D : Deps) (t : TypeName) :
    parseDerNamed D t = parseDerWithTag D (typeNumber t) := by cases t <;> rfl

theorem hasType_of_denotes {D : Deps} {d : Nat} {h : Header} {c : Bytes} {x : Content}
    {t : TypeName} (hD : Denotes D d h c x) (hcls : h.cls = .universal)
    (ht : h.tag = typeNumber t) : HasType t x := by
  have ha := denotes_agrees hD
  clear hD
  cases t <;> simp only [typeNumber] at ht <;> cases x <;> (try (rename_i k _; cases k)) <;>
    simp_all [Agrees, HasType]

/-- C64: every `parse_ber_xxx` accepts exactly the elements whose tag number is the universal number
of the type (X.680 table 1) and whose contents octets denote a value of that type (the class is not
looked at, C42). -/
theorem C64_parse_ber_named (D : Deps) (t : TypeName) (i rem : Bytes) (o : BerObject) :
    parseBerNamed D t i = .ok (rem, o) ↔
      ∃ e c, i = e ++ rem ∧ Framed 50 e o.header c ∧ o.header.tag = typeNumber t ∧
        (∀ L, o.header.length = .definite L → L ≤ 4294967295) ∧
        Denotes D 50 (Header.new .universal o.header.constructed (typeNumber t) o.header.length) c
          o.content ∧ HasType t o.content := by
  rw [parseBerNamed_eq, C61_parse_ber_with_tag]
  constructor
  · rintro ⟨e, c, h1, h2, h3, h4, h5⟩
    rw [h3] at h5
    exact ⟨e, c, h1, h2, h3, h4, h5, hasType_of_denotes h5 rfl rfl⟩
  · rintro ⟨e, c, h1, h2, h3, h4, h5, _⟩
    exact ⟨e, c, h1, h2, h3, h4, h3 ▸ h5⟩

example := (C64_parse_ber_named Tests.D0 .bool [0x01, 0x01, 0xff, 9] [9] _).1 rfl

/-- C64: every `parse_der_xxx`, likewise, with the restrictions of DER for the outermost element. -/
theorem C64_parse_der_named (D : Deps) (t : TypeName) (i rem : Bytes) (o : BerObject) :
    parseDerNamed D t i = .ok (rem, o) ↔
      ∃ hb c, i = hb ++ c ++ rem ∧ DerHeader hb o.header ∧ o.header.length = .definite c.length ∧
        o.header.tag = typeNumber t ∧ DerRules (typeNumber t) c ∧
        (t = .bitstring ∨ c.length ≤ 4294967295) ∧
        Denotes D 50 (Header.new .universal o.header.constructed (typeNumber t) o.header.length) c
          o.content ∧ HasType t o.content := by
  have hb : (typeNumber t = 3) ↔ t = .bitstring := by cases t <;> simp [typeNumber]
  rw [parseDerNamed_eq, C63_parse_der_with_tag_exact]
  constructor
  · rintro ⟨e, c, h1, h2, h3, h4, h5, h6, h7⟩
    rw [h4] at h7
    exact ⟨e, c, h1, h2, h3, h4, h5, h6.imp hb.1 id, h7, hasType_of_denotes h7 rfl rfl⟩
  · rintro ⟨e, c, h1, h2, h3, h4, h5, h6, h7, _⟩
    exact ⟨e, c, h1, h2, h3, h4, h5, h6.imp hb.2 id, h4 ▸ h7⟩

/-- C64: an element with another tag number is answered with `UnexpectedTag`, naming both numbers. -/
theorem C64_other_tag (D : Deps) (t : TypeName) (hb x : Bytes) (h : Header) (H : BerHeader hb h)
    (hne : h.tag ≠ typeNumber t) :
    parseBerNamed D t (hb ++ x) = .err (.error (.unexpectedTag (some (typeNumber t)) h.tag)) := by
  rw [parseBerNamed_eq]
  unfold parseBerWithTag
  rw [headerFromBer_iff.2 ⟨hb, rfl, H⟩]
  simp only [ok_bind]
  unfold Header.assertTag
  rw [if_neg hne]
  rfl

/-- An INTEGER where a BOOLEAN is asked for. -/
example := C64_other_tag Tests.D0 .bool [0x02, 0x01] [5] _ (berHeader_read rfl) (by decide)

/-- C64: the same for the DER functions. -/
theorem C64_other_tag_der (D : Deps) (t : TypeName) (hb x : Bytes) (h : Header) (H : DerHeader hb h)
    (hne : h.tag ≠ typeNumber t) :
    parseDerNamed D t (hb ++ x) = .err (.error (.unexpectedTag (some (typeNumber t)) h.tag)) := by
  rw [parseDerNamed_eq]
  unfold parseDerWithTag
  rw [headerFromDer_iff.2 ⟨hb, rfl, H⟩]
  simp only [ok_bind]
  unfold Header.assertTag
  rw [if_neg hne]
  rfl

example := C64_other_tag_der Tests.D0 .bool [0x02, 0x01] [5] _ (derHeader_read rfl) (by decide)

/-- C64: no two of the functions accept the same input. -/
theorem C64_types_disjoint (D : Deps) (t t' : TypeName) (i rem rem' : Bytes) (o o' : BerObject)
    (h : parseBerNamed D t i = .ok (rem, o)) (h' : parseBerNamed D t' i = .ok (rem', o')) :
    t = t' := by
  have inj : ∀ a b : TypeName, typeNumber a = typeNumber b → a = b := by
    intro a b; cases a <;> cases b <;> simp [typeNumber]
  rw [parseBerNamed_eq] at h h'
  unfold parseBerWithTag at h h'
  cases hh : headerFromBer i with
  | ok r =>
    rw [hh] at h h'
    simp only [ok_bind] at h h'
    unfold Header.assertTag at h h'
    by_cases e : r.2.tag = typeNumber t
    · by_cases e' : r.2.tag = typeNumber t'
      · exact inj _ _ (e.symm.trans e')
      · rw [if_neg e'] at h'; exact absurd h' (by simp [liftRes])
    · rw [if_neg e] at h; exact absurd h (by simp [liftRes])
  | err e => rw [hh] at h; exact absurd h (by simp)
  | panic => rw [hh] at h; exact absurd h (by simp)
  | diverge => rw [hh] at h; exact absurd h (by simp)

/-- C64: no two of the DER functions accept the same input. -/
theorem C64_types_disjoint_der (D : Deps) (t t' : TypeName) (i rem rem' : Bytes) (o o' : BerObject)
    (h : parseDerNamed D t i = .ok (rem, o)) (h' : parseDerNamed D t' i = .ok (rem', o')) :
    t = t' := by
  have inj : ∀ a b : TypeName, typeNumber a = typeNumber b → a = b := by
    intro a b; cases a <;> cases b <;> simp [typeNumber]
  rw [parseDerNamed_eq] at h h'
  unfold parseDerWithTag at h h'
  cases hh : headerFromDer i with
  | ok r =>
    rw [hh] at h h'
    simp only [ok_bind] at h h'
    unfold Header.assertTag at h h'
    by_cases e : r.2.tag = typeNumber t
    · by_cases e' : r.2.tag = typeNumber t'
      · exact inj _ _ (e.symm.trans e')
      · rw [if_neg e'] at h'; exact absurd h' (by simp [liftRes])
    · rw [if_neg e] at h; exact absurd h (by simp [liftRes])
  | err e => rw [hh] at h; exact absurd h (by simp)
  | panic => rw [hh] at h; exact absurd h (by simp)
  | diverge => rw [hh] at h; exact absurd h (by simp)

example : parseBerNamed Tests.D0 .graphicstring [0x19, 0x02, 0x41, 0x42, 0x05] =
    .ok ([0x05], .mk ⟨.universal, false, 25, .definite 2, some [0x19]⟩
      (.str .graphic [0x41, 0x42])) := rfl

example : ∃ x, parseDerNamed Tests.D0 .set [0x31, 0x00] = .ok ([], x) ∧ HasType .set x.content :=
  ⟨_, rfl, _, rfl⟩

/-! ## C65 -/

/-- C65: `as_bool`, `as_oid`, `as_optional`, `as_tagged`, `as_bitstring`, `as_sequence`, `as_set`,
`as_str` succeed exactly on their variants, with the value stored there. -/
theorem C65_accessors_ok (c : Content) :
    (∀ b, c.asBool = .ok b ↔ c = .boolean b) ∧
    (∀ s, c.asOid = .ok s ↔ c = .oid s ∨ c = .relativeOid s) ∧
    (∀ x, c.asOptional = .ok x ↔
      (x = none ∧ c = .optionalNone) ∨ ∃ o, x = some o ∧ c = .optionalSome o) ∧
    (∀ k t o, c.asTagged = .ok (k, t, o) ↔ c = .tagged k t o) ∧
    (∀ s, c.asBitstring = .ok s ↔ ∃ u, c = .bitString u s) ∧
    (∀ l, c.asSequence = .ok l ↔ c = .sequence l) ∧
    (∀ l, c.asSet = .ok l ↔ c = .set l) ∧
    (∀ s, c.asStr = .ok s ↔ ∃ k, c = .str k s) ∧
    (∀ s, c.asSlice = .ok s ↔ (∃ k, c = .str k s) ∨ c = .integer s ∨ (∃ u, c = .bitString u s) ∨
      c = .octetString s ∨ c = .bmpString s ∨ c = .universalString s ∨
      ∃ h, c = .unknown ⟨h, s⟩) := by
  refine ⟨?_, ?_, ?_, ?_, ?_, ?_, ?_, ?_, ?_⟩ <;> intros <;> cases c <;>
    simp [Content.asBool, Content.asOid, Content.asOptional, Content.asTagged, Content.asBitstring,
      Content.asSequence, Content.asSet, Content.asStr, Content.asSlice, eq_comm]
  rename_i s a
  constructor
  · rintro rfl; exact ⟨a.header, rfl⟩
  · rintro ⟨h, rfl⟩; rfl

/-- C65: otherwise they answer `BerTypeError`; there is no other error and no panic. -/
theorem C65_accessors_err (c : Content) :
    ((∃ b, c.asBool = .ok b) ∨ c.asBool = .err .berTypeError) ∧
    ((∃ s, c.asOid = .ok s) ∨ c.asOid = .err .berTypeError) ∧
    ((∃ x, c.asOptional = .ok x) ∨ c.asOptional = .err .berTypeError) ∧
    ((∃ x, c.asTagged = .ok x) ∨ c.asTagged = .err .berTypeError) ∧
    ((∃ s, c.asBitstring = .ok s) ∨ c.asBitstring = .err .berTypeError) ∧
    ((∃ l, c.asSequence = .ok l) ∨ c.asSequence = .err .berTypeError) ∧
    ((∃ l, c.asSet = .ok l) ∨ c.asSet = .err .berTypeError) ∧
    ((∃ s, c.asStr = .ok s) ∨ c.asStr = .err .berTypeError) ∧
    ((∃ s, c.asSlice = .ok s) ∨ c.asSlice = .err .berTypeError) := by
  cases c <;>
    simp [Content.asBool, Content.asOid, Content.asOptional, Content.asTagged, Content.asBitstring,
      Content.asSequence, Content.asSet, Content.asStr, Content.asSlice]

/-- C65: what `as_str` gives is what `as_slice` gives. -/
theorem C65_str_slice (c : Content) (s : Bytes) (h : c.asStr = .ok s) : c.asSlice = .ok s := by
  cases c <;> simp_all [Content.asStr, Content.asSlice]

example : (Content.relativeOid [1]).asOid = .ok [1] ∧ (Content.null).asOid = .err .berTypeError :=
  ⟨rfl, rfl⟩

/-! ## C66 -/

/-- C66 as one would expect it of `==`. -/
def C66Statement : Prop :=
  (∀ o : BerObject, o.rustEq o = true) ∧
  (∀ o o' : BerObject, o.rustEq o' = true → o'.rustEq o = true) ∧
  (∀ o o' o'' : BerObject, o.rustEq o' = true → o'.rustEq o'' = true → o.rustEq o'' = true)

theorem Header.rustEq_refl (h : Header) : h.rustEq h = true := by
  unfold Header.rustEq; cases h.rawTag <;> simp

theorem Header.rustEq_symm (h h' : Header) : h.rustEq h' = h'.rustEq h := by
  unfold Header.rustEq
  cases h.rawTag <;> cases h'.rawTag <;> simp [eq_comm]

mutual
theorem BerObject.rustEq_refl : ∀ o : BerObject, o.rustEq o = true
  | .mk h c => by simp [BerObject.rustEq, Header.rustEq_refl, Content.rustEq_refl c]
theorem Content.rustEq_refl : ∀ c : Content, c.rustEq c = true
  | .sequence l => by simp [Content.rustEq, listRustEq_refl l]
  | .set l => by simp [Content.rustEq, listRustEq_refl l]
  | .optionalSome o => by simp [Content.rustEq, BerObject.rustEq_refl o]
  | .tagged k t o => by simp [Content.rustEq, BerObject.rustEq_refl o]
  | .unknown a => by simp [Content.rustEq, Header.rustEq_refl]
  | .endOfContent | .null | .optionalNone => rfl
  | .boolean _ | .integer _ | .octetString _ | .enum _ | .oid _ | .relativeOid _ | .bmpString _
  | .universalString _ | .utcTime _ | .generalizedTime _ => by simp [Content.rustEq]
  | .bitString _ _ | .str _ _ => by simp [Content.rustEq]
theorem listRustEq_refl : ∀ l : List BerObject, listRustEq l l = true
  | [] => rfl
  | o :: l => by simp [listRustEq, BerObject.rustEq_refl o, listRustEq_refl l]
end

mutual
theorem BerObject.rustEq_symm : ∀ o o' : BerObject, o.rustEq o' = o'.rustEq o
  | .mk h c, .mk h' c' => by
    simp only [BerObject.rustEq]; rw [Header.rustEq_symm h h', Content.rustEq_symm c c']
theorem Content.rustEq_symm : ∀ c c' : Content, c.rustEq c' = c'.rustEq c
  | .sequence l, c' => by
    cases c' <;> simp only [Content.rustEq]
    exact listRustEq_symm l _
  | .set l, c' => by
    cases c' <;> simp only [Content.rustEq]
    exact listRustEq_symm l _
  | .optionalSome o, c' => by
    cases c' <;> simp only [Content.rustEq]
    exact BerObject.rustEq_symm o _
  | .tagged k t o, c' => by
    cases c' <;> simp only [Content.rustEq]
    rename_i k' t' o'
    rw [BerObject.rustEq_symm o o']
    simp [eq_comm]
  | .unknown a, c' => by
    cases c' <;> simp only [Content.rustEq]
    rename_i a'
    rw [Header.rustEq_symm a.header a'.header]
    simp [eq_comm]
  | .endOfContent, c' | .null, c' | .optionalNone, c' => by cases c' <;> rfl
  | .boolean _, c' | .integer _, c' | .octetString _, c' | .enum _, c' | .oid _, c'
  | .relativeOid _, c' | .bmpString _, c' | .universalString _, c' | .utcTime _, c'
  | .generalizedTime _, c' | .bitString _ _, c' | .str _ _, c' => by
    cases c' <;> simp [Content.rustEq, eq_comm]
theorem listRustEq_symm : ∀ l l' : List BerObject, listRustEq l l' = listRustEq l' l
  | [], l' => by cases l' <;> rfl
  | o :: l, [] => rfl
  | o :: l, o' :: l' => by
    simp only [listRustEq]; rw [BerObject.rustEq_symm o o', listRustEq_symm l l']
end

/-- C66: `==` is not transitive: an object without raw tag (built by hand) equals two objects that
were read from different identifier octets and that are not equal to each other. -/
theorem C66_not_transitive_counterexample : ¬ C66Statement := by
  rintro ⟨_, _, h⟩
  have := h (.mk ⟨.universal, false, 5, .definite 0, some [0x05]⟩ .null)
    (.mk ⟨.universal, false, 5, .definite 0, none⟩ .null)
    (.mk ⟨.universal, false, 5, .definite 0, some [0x1f, 0x05]⟩ .null) (by decide) (by decide)
  exact absurd this (by decide)


namespace Spec
mutual
/-- Every header in the tree carries its raw identifier octets (true for parsed objects, up to the
inner header of unknown elements returned by the DER functions). -/
def RawTagged : BerObject → Prop
  | .mk h c => h.rawTag ≠ none ∧ RawTaggedC c
/-- The same for contents. -/
def RawTaggedC : Content → Prop
  | .sequence l => RawTaggedL l
  | .set l => RawTaggedL l
  | .optionalSome o => RawTagged o
  | .tagged _ _ o => RawTagged o
  | .unknown a => a.header.rawTag ≠ none
  | _ => True
/-- The same for lists. -/
def RawTaggedL : List BerObject → Prop
  | [] => True
  | o :: os => RawTagged o ∧ RawTaggedL os
end
end Spec

theorem Header.rustEq_iff (h h' : Header) : h.rustEq h' = true ↔
    eraseH h = eraseH h' ∧ ∀ r r', h.rawTag = some r → h'.rawTag = some r' → r = r' := by
  obtain ⟨k, c, t, l, r⟩ := h
  obtain ⟨k', c', t', l', r'⟩ := h'
  unfold Header.rustEq eraseH
  cases r <;> cases r' <;> simp [and_assoc]

theorem Header.rustEq_trans {a b c : Header} (hb : b.rawTag ≠ none) (h : a.rustEq b = true)
    (h' : b.rustEq c = true) : a.rustEq c = true := by
  rw [Header.rustEq_iff] at h h' ⊢
  refine ⟨h.1.trans h'.1, fun r r' e e' => ?_⟩
  cases hbr : b.rawTag with
  | none => exact absurd hbr hb
  | some x => exact (h.2 r x e hbr).trans (h'.2 x r' hbr e')

mutual
theorem rustEq_trans_obj : ∀ b a c : BerObject, RawTagged b → a.rustEq b = true →
    b.rustEq c = true → a.rustEq c = true
  | .mk hb cb, .mk ha ca, .mk hc cc, hr, h, h' => by
    simp only [BerObject.rustEq, Bool.and_eq_true] at h h' ⊢
    simp only [RawTagged] at hr
    exact ⟨Header.rustEq_trans hr.1 h.1 h'.1, rustEq_trans_content cb ca cc hr.2 h.2 h'.2⟩
theorem rustEq_trans_content : ∀ b a c : Content, RawTaggedC b → a.rustEq b = true →
    b.rustEq c = true → a.rustEq c = true
  | .sequence l, a, c, hr, h, h' => by
    cases a <;> simp only [Content.rustEq, Bool.false_eq_true] at h
    cases c <;> simp only [Content.rustEq, Bool.false_eq_true] at h'
    simp only [Content.rustEq]
    exact rustEq_trans_list l _ _ hr h h'
  | .set l, a, c, hr, h, h' => by
    cases a <;> simp only [Content.rustEq, Bool.false_eq_true] at h
    cases c <;> simp only [Content.rustEq, Bool.false_eq_true] at h'
    simp only [Content.rustEq]
    exact rustEq_trans_list l _ _ hr h h'
  | .optionalSome o, a, c, hr, h, h' => by
    cases a <;> simp only [Content.rustEq, Bool.false_eq_true] at h
    cases c <;> simp only [Content.rustEq, Bool.false_eq_true] at h'
    simp only [Content.rustEq]
    exact rustEq_trans_obj o _ _ hr h h'
  | .tagged k t o, a, c, hr, h, h' => by
    cases a <;> simp only [Content.rustEq, Bool.false_eq_true] at h
    cases c <;> simp only [Content.rustEq, Bool.false_eq_true] at h'
    simp only [Content.rustEq, Bool.and_eq_true, decide_eq_true_eq] at h h' ⊢
    exact ⟨⟨h.1.1.trans h'.1.1, h.1.2.trans h'.1.2⟩, rustEq_trans_obj o _ _ hr h.2 h'.2⟩
  | .unknown x, a, c, hr, h, h' => by
    cases a <;> simp only [Content.rustEq, Bool.false_eq_true] at h
    cases c <;> simp only [Content.rustEq, Bool.false_eq_true] at h'
    simp only [Content.rustEq, Bool.and_eq_true, decide_eq_true_eq] at h h' ⊢
    exact ⟨Header.rustEq_trans hr h.1 h'.1, h.2.trans h'.2⟩
  | .endOfContent, a, c, _, h, h' | .null, a, c, _, h, h' | .optionalNone, a, c, _, h, h'
  | .boolean _, a, c, _, h, h' | .integer _, a, c, _, h, h' | .octetString _, a, c, _, h, h'
  | .enum _, a, c, _, h, h' | .oid _, a, c, _, h, h' | .relativeOid _, a, c, _, h, h'
  | .bmpString _, a, c, _, h, h' | .universalString _, a, c, _, h, h' | .utcTime _, a, c, _, h, h'
  | .generalizedTime _, a, c, _, h, h' | .bitString _ _, a, c, _, h, h'
  | .str _ _, a, c, _, h, h' => by
    cases a <;> simp only [Content.rustEq, Bool.false_eq_true, Bool.and_eq_true,
      decide_eq_true_eq] at h <;>
    cases c <;> simp only [Content.rustEq, Bool.false_eq_true, Bool.and_eq_true,
      decide_eq_true_eq] at h' <;>
    simp_all [Content.rustEq]
theorem rustEq_trans_list : ∀ b a c : List BerObject, RawTaggedL b → listRustEq a b = true →
    listRustEq b c = true → listRustEq a c = true
  | [], a, c, _, h, h' => by
    cases a <;> simp only [listRustEq, Bool.false_eq_true] at h
    exact h'
  | o :: l, a, c, hr, h, h' => by
    cases a <;> simp only [listRustEq, Bool.false_eq_true] at h
    cases c <;> simp only [listRustEq, Bool.false_eq_true] at h'
    simp only [listRustEq, Bool.and_eq_true] at h h' ⊢
    simp only [RawTaggedL] at hr
    exact ⟨rustEq_trans_obj o _ _ hr.1 h.1 h'.1, rustEq_trans_list l _ _ hr.2 h.2 h'.2⟩
end

/-- C66, what holds: reflexive, symmetric, and transitive through objects that carry their raw
tags.  Missing: transitivity through objects built by hand. -/
theorem C66_equality_partial :
    (∀ o : BerObject, o.rustEq o = true) ∧
    (∀ o o' : BerObject, o.rustEq o' = true → o'.rustEq o = true) ∧
    (∀ o o' o'' : BerObject, RawTagged o' → o.rustEq o' = true → o'.rustEq o'' = true →
      o.rustEq o'' = true) :=
  ⟨BerObject.rustEq_refl, fun o o' h => by rw [BerObject.rustEq_symm]; exact h,
    fun o o' o'' hr => rustEq_trans_obj o' o o'' hr⟩

/-- Three INTEGERs, equal though their lengths are encoded in different ways (so that their headers differ). -/
example := C66_equality_partial.2.2 (.mk (Tests.h .universal false 2 1 [2]) (.integer [5]))
  (.mk (Tests.h .universal false 2 1 [2]) (.integer [5])) (.mk ⟨.universal, false, 2, .indefinite, none⟩ (.integer [5]))
  (by simp [RawTagged, RawTaggedC, Tests.h]) rfl rfl

mutual
theorem rustEq_erase : ∀ o o' : BerObject, o.rustEq o' = true → erase o = erase o'
  | .mk h c, .mk h' c', e => by
    simp only [BerObject.rustEq, Bool.and_eq_true] at e
    simp only [erase]
    rw [((Header.rustEq_iff _ _).1 e.1).1, rustEq_eraseC c c' e.2]
theorem rustEq_eraseC : ∀ c c' : Content, c.rustEq c' = true → eraseC c = eraseC c'
  | .sequence l, c', e => by
    cases c' <;> simp only [Content.rustEq, Bool.false_eq_true] at e
    simp only [eraseC]; rw [rustEq_eraseL l _ e]
  | .set l, c', e => by
    cases c' <;> simp only [Content.rustEq, Bool.false_eq_true] at e
    simp only [eraseC]; rw [rustEq_eraseL l _ e]
  | .optionalSome o, c', e => by
    cases c' <;> simp only [Content.rustEq, Bool.false_eq_true] at e
    simp only [eraseC]; rw [rustEq_erase o _ e]
  | .tagged k t o, c', e => by
    cases c' <;> simp only [Content.rustEq, Bool.false_eq_true] at e
    simp only [Bool.and_eq_true, decide_eq_true_eq] at e
    simp only [eraseC]; rw [rustEq_erase o _ e.2, e.1.1, e.1.2]
  | .unknown a, c', e => by
    cases c' <;> simp only [Content.rustEq, Bool.false_eq_true] at e
    simp only [Bool.and_eq_true, decide_eq_true_eq] at e
    simp only [eraseC]; rw [((Header.rustEq_iff _ _).1 e.1).1, e.2]
  | .endOfContent, c', e | .null, c', e | .optionalNone, c', e | .boolean _, c', e
  | .integer _, c', e | .octetString _, c', e | .enum _, c', e | .oid _, c', e
  | .relativeOid _, c', e | .bmpString _, c', e | .universalString _, c', e | .utcTime _, c', e
  | .generalizedTime _, c', e | .bitString _ _, c', e | .str _ _, c', e => by
    cases c' <;> simp_all [Content.rustEq]
theorem rustEq_eraseL : ∀ l l' : List BerObject, listRustEq l l' = true → eraseL l = eraseL l'
  | [], l', e => by cases l' <;> simp_all [listRustEq]
  | o :: l, l', e => by
    cases l' <;> simp only [listRustEq, Bool.false_eq_true] at e
    simp only [Bool.and_eq_true] at e
    simp only [eraseL]; rw [rustEq_erase o _ e.1, rustEq_eraseL l _ e.2]
end

mutual
theorem erase_rustEq : ∀ o o' : BerObject, erase o = o' → o.rustEq o' = true
  | .mk h c, o', e => by
    subst e
    simp only [erase, BerObject.rustEq, Bool.and_eq_true]
    exact ⟨by unfold Header.rustEq eraseH; cases h.rawTag <;> simp, erase_rustEqC c _ rfl⟩
theorem erase_rustEqC : ∀ c c' : Content, eraseC c = c' → c.rustEq c' = true
  | .sequence l, c', e => by
    subst e; simp only [eraseC, Content.rustEq]; exact erase_rustEqL l _ rfl
  | .set l, c', e => by
    subst e; simp only [eraseC, Content.rustEq]; exact erase_rustEqL l _ rfl
  | .optionalSome o, c', e => by
    subst e; simp only [eraseC, Content.rustEq]; exact erase_rustEq o _ rfl
  | .tagged k t o, c', e => by
    subst e; simp only [eraseC, Content.rustEq]; simp [erase_rustEq o _ rfl]
  | .unknown a, c', e => by
    subst e; simp only [eraseC, Content.rustEq, Bool.and_eq_true]
    exact ⟨by unfold Header.rustEq eraseH; cases a.header.rawTag <;> simp, by simp⟩
  | .endOfContent, c', e | .null, c', e | .optionalNone, c', e | .boolean _, c', e
  | .integer _, c', e | .octetString _, c', e | .enum _, c', e | .oid _, c', e
  | .relativeOid _, c', e | .bmpString _, c', e | .universalString _, c', e | .utcTime _, c', e
  | .generalizedTime _, c', e | .bitString _ _, c', e | .str _ _, c', e => by
    subst e; simp [eraseC, Content.rustEq]
theorem erase_rustEqL : ∀ l l' : List BerObject, eraseL l = l' → listRustEq l l' = true
  | [], l', e => by subst e; rfl
  | o :: l, l', e => by
    subst e; simp only [eraseL, listRustEq, Bool.and_eq_true]
    exact ⟨erase_rustEq o _ rfl, erase_rustEqL l _ rfl⟩
end

/-- C66: equal objects agree in everything but lengths and raw tags, and every object equals the
object without these fields.  In particular lengths are not compared at any level. -/
theorem C66_lengths_ignored (o o' : BerObject) :
    (o.rustEq o' = true → erase o = erase o') ∧ o.rustEq (erase o) = true :=
  ⟨rustEq_erase o o', erase_rustEq o _ rfl⟩

example : RawTagged (.mk ⟨.universal, true, 16, .definite 2, some [0x30]⟩
    (.sequence [.mk ⟨.universal, false, 5, .definite 0, some [5]⟩ .null])) := by
  simp [RawTagged, RawTaggedC, RawTaggedL]

/-! ## C67 -/

theorem msb0Bits_eq (s : Bytes) : msb0Bits s = bitsOf s := by
  have hb : ∀ n, n < 256 → (fun b : UInt8 => [b &&& 0x80 != 0, b &&& 0x40 != 0, b &&& 0x20 != 0,
      b &&& 0x10 != 0, b &&& 0x08 != 0, b &&& 0x04 != 0, b &&& 0x02 != 0, b &&& 0x01 != 0])
      (UInt8.ofNat n) = bitsOfByte (UInt8.ofNat n) := by decide +kernel
  induction s with
  | nil => rfl
  | cons b bs ih =>
    have := hb b.toNat b.toNat_lt
    rw [UInt8.ofNat_toNat] at this
    simp only [msb0Bits, ih, this, bitsOf, List.flatMap_cons]

/-- C67: `as_bitslice` on a BIT STRING is the list of all bits of the data octets, most significant
first (the unused bits of the last octet are included), and bit `n` of it is what `is_set(n)` tells;
past its end `is_set` answers false. -/
theorem C67_bitslice (u : UInt8) (s : Bytes) :
    (Content.bitString u s).asBitslice = .ok (bitsOf s) ∧
    bitStringAsBitslice s = some (bitsOf s) ∧
    (bitsOf s).length = 8 * s.length ∧
    ∀ n, bitStringIsSet s n = .ok ((bitsOf s)[n]?.getD false) := by
  refine ⟨by simp [Content.asBitslice, Content.asSlice, msb0Bits_eq], by
    simp [bitStringAsBitslice, msb0Bits_eq], bitsOf_length s, fun n => ?_⟩
  rw [C22_is_set]
  cases (bitsOf s)[n]? with
  | none => rfl
  | some b => cases b <;> rfl

/-- C67: on other contents `as_bitslice` gives the bits of `as_slice` and fails when it fails. -/
theorem C67_bitslice_of_slice (c : Content) (l : List Bool) :
    c.asBitslice = .ok l ↔ ∃ s, c.asSlice = .ok s ∧ l = bitsOf s := by
  unfold Content.asBitslice
  cases h : c.asSlice <;> simp [msb0Bits_eq, eq_comm]

example : (Content.bitString 4 [0xa0]).asBitslice =
    .ok [true, false, true, false, false, false, false, false] := rfl

end Verif
