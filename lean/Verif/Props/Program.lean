import Verif.Program
import Verif.Props.Integers
import Verif.Props.SchemaFail
/-!
# Property C117: the programs of the documentation and of the tests

For each program written with the library in the documentation comments and in /repo/tests/constructed.rs: exactly
which octets it accepts, and the value of the user's own type that it gives.
-/
namespace Verif
open Outcome Spec

/-! ## Specification -/

namespace Spec

/-- `INTEGER (0..4294967295)` as a native value: one primitive element with tag number 2. -/
def UnsignedBy (R : Rules) (i rem : Bytes) (v : Nat) : Prop :=
  ∃ e c, i = e ++ rem ∧ IntElement e c ∧ (R = .der → MinimalInt c) ∧ twosComplement c = v ∧ v < 2 ^ 32

/-- One element with this tag number, read as an INTEGER with contents octets `c` (primitive or not). -/
def IntegerBy (R : Rules) (tag : Nat) (i rem : Bytes) (h : Header) (c : Bytes) : Prop :=
  FramedBy R i rem h c ∧ h.tag = tag ∧ (∀ l, h.length = .definite l → l < 2 ^ 32) ∧
    (R = .der → c ≠ [] ∧ (bitsOf c).take 9 ≠ List.replicate 9 false)

/-- One element with this tag number, read as an OCTET STRING with contents octets `c` (primitive or not). -/
def OctetsBy (R : Rules) (tag : Nat) (i rem : Bytes) (h : Header) (c : Bytes) : Prop :=
  FramedBy R i rem h c ∧ h.tag = tag ∧ ∀ l, h.length = .definite l → l < 2 ^ 32

/-- `MyObject` in an element with this tag number: an unsigned integer, then an octet string; what follows them inside the
element is not looked at. -/
def MyObjectBy (R : Rules) (tag : Nat) (i rem : Bytes) (a : Nat) (b : Bytes) : Prop :=
  ∃ h c mid h' rest, FramedBy R i rem h c ∧ h.tag = tag ∧ UnsignedBy R c mid a ∧ OctetsBy R 4 mid rest h' b

/-- `[2] EXPLICIT INTEGER`, of any value: contents octets `c` of the integer. -/
def ExplicitIntBy (R : Rules) (i rem : Bytes) (c : Bytes) : Prop :=
  ∃ h k h' rest, FramedBy R i rem h k ∧ h.cls ≠ .universal ∧ h.tag = 2 ∧ h.constructed = true ∧
    IntegerBy R 2 k rest h' c

/-- `[2] IMPLICIT INTEGER`, of any value.  Contents of indefinite length are not read. -/
def ImplicitIntBy (R : Rules) (i rem : Bytes) (c : Bytes) : Prop :=
  ∃ h, IntegerBy R 2 i rem h c ∧ h.length ≠ .indefinite

/-- The contents of `MyStruct`: two integers. -/
def TwoIntegers (i rem : Bytes) (a b : BerObject) : Prop :=
  ∃ ca cb mid, IntegerBy .ber 2 i mid a.header ca ∧ a.content = .integer ca ∧
    IntegerBy .ber 2 mid rem b.header cb ∧ b.content = .integer cb

/-- An attribute: an object identifier, then a string of one of three types, in a SEQUENCE. -/
def AttrBy (D : Deps) (i rem : Bytes) (v : Bytes × BerObject) : Prop :=
  ∃ h c h' mid rest, FramedBy .der i rem h c ∧ h.tag = 16 ∧ FramedBy .ber c mid h' v.1 ∧ h'.tag = 6 ∧
    (∀ l, h'.length = .definite l → l < 2 ^ 32) ∧ ∃ t ∈ [12, 19, 22], TypedBy D .ber t t mid rest v.2

/-- A SET whose contents start with an attribute. -/
def RdnBy (D : Deps) (i rem : Bytes) (v : Bytes × BerObject) : Prop :=
  ∃ h c rest, FramedBy .der i rem h c ∧ h.tag = 17 ∧ AttrBy D c rest v

/-- Values one after the other for as long as there are any: `rest` does not start with another one. -/
inductive AsManyAs {V : Type} (P : Bytes → Bytes → V → Prop) : Bytes → List V → Bytes → Prop
  | stop (i : Bytes) : (∀ rem v, ¬ P i rem v) → AsManyAs P i [] i
  | more (i mid rest : Bytes) (v : V) (vs : List V) : P i mid v → AsManyAs P mid vs rest →
      AsManyAs P i (v :: vs) rest

end Spec

/-! ## The parts -/

theorem parseTyped_iff {D : Deps} {R : Rules} {tag : Nat} {i rem : Bytes} {o : BerObject} :
    parseTyped D R tag i = .ok (rem, o) ↔ TypedBy D R tag tag i rem o := by
  cases R
  · exact typedBy_ber
  · exact typedBy_der

theorem parseTyped_returns (D : Deps) (R : Rules) (tag : Nat) (i : Bytes) : (parseTyped D R tag i).Returns := by
  cases R
  · exact returns_parseBerWithTag D tag i
  · exact returns_parseDerWithTag D tag i

theorem parseU32_returns (R : Rules) (i : Bytes) : (parseU32 R i).Returns := by
  cases R
  · exact returns_parseBerUint 4 i
  · exact returns_parseDerUint 4 i

theorem parseU32_iff {R : Rules} {i rem : Bytes} {v : Nat} :
    parseU32 R i = .ok (rem, v) ↔ UnsignedBy R i rem v := by
  cases R
  · show parseBerUint 4 i = _ ↔ _
    rw [C72_ber_unsigned 4 (by decide)]
    constructor
    · rintro ⟨e, c, h1, h2, h3, h4⟩; exact ⟨e, c, h1, h2, by simp, h3, h4⟩
    · rintro ⟨e, c, h1, h2, _, h3, h4⟩; exact ⟨e, c, h1, h2, h3, h4⟩
  · show parseDerUint 4 i = _ ↔ _
    rw [C72_der_unsigned 4 (by decide)]
    constructor
    · rintro ⟨e, c, h1, h2, h0, h3, h4⟩; exact ⟨e, c, h1, h2, fun _ => h0, h3, h4⟩
    · rintro ⟨e, c, h1, h2, h0, h3, h4⟩; exact ⟨e, c, h1, h2, h0 rfl, h3, h4⟩

theorem denotes_universal {D : Deps} {d t : Nat} {b : Bool} {l : Length} {c : Bytes} {x : Content}
    (ht : t ≠ 16 ∧ t ≠ 17) :
    Denotes D (d + 1) (Header.new .universal b t l) c x ↔ Leaf D (Header.new .universal b t l) c x := by
  constructor
  · intro h
    cases h with
    | leaf _ _ _ _ h => exact h
    | sequence _ _ _ _ h => exact absurd h ht.1
    | set _ _ _ _ h => exact absurd h ht.2
  · exact .leaf d _ c x

theorem leaf_integer {D : Deps} {b : Bool} {l : Length} {c : Bytes} {x : Content} :
    Leaf D (Header.new .universal b 2 l) c x ↔ x = .integer c := by
  constructor
  · intro h
    cases x <;> simp [Leaf, Header.new] at h
    · rw [h]
    · rename_i k s
      cases k <;> simp [strTag] at h
  · rintro rfl
    simp [Leaf, Header.new]

theorem leaf_octets {D : Deps} {b : Bool} {l : Length} {c : Bytes} {x : Content} :
    Leaf D (Header.new .universal b 4 l) c x ↔ x = .octetString c := by
  constructor
  · intro h
    cases x <;> simp [Leaf, Header.new] at h
    · rw [h]
    · rename_i k s
      cases k <;> simp [strTag] at h
  · rintro rfl
    simp [Leaf, Header.new]

theorem leaf_oid {D : Deps} {b : Bool} {l : Length} {c : Bytes} {x : Content} :
    Leaf D (Header.new .universal b 6 l) c x ↔ x = .oid c := by
  constructor
  · intro h
    cases x <;> simp [Leaf, Header.new] at h
    · rw [h]
    · rename_i k s
      cases k <;> simp [strTag] at h
  · rintro rfl
    simp [Leaf, Header.new]

theorem derRules_int {c : Bytes} : DerRules 2 c ↔ c ≠ [] ∧ (bitsOf c).take 9 ≠ List.replicate 9 false :=
  ⟨fun h => h.int rfl, fun h => ⟨by simp, fun _ => h, by simp, by simp⟩⟩

theorem typedBy_integer {D : Deps} {R : Rules} {tag : Nat} {i rem : Bytes} {o : BerObject} :
    TypedBy D R tag 2 i rem o ↔ ∃ c, IntegerBy R tag i rem o.header c ∧ o.content = .integer c := by
  unfold TypedBy IntegerBy
  simp only [denotes_universal (D := D) (d := 49) (t := 2) (by decide), leaf_integer, derRules_int]
  constructor
  · rintro ⟨c, h1, h2, h3, h4, h5⟩
    exact ⟨c, ⟨h1, h2, fun l hl => (h3 l hl).elim id (fun h => absurd h.2 (by decide)), h4⟩, h5⟩
  · rintro ⟨c, ⟨h1, h2, h3, h4⟩, h5⟩
    exact ⟨c, h1, h2, fun l hl => .inl (h3 l hl), h4, h5⟩

theorem typedBy_octets {D : Deps} {R : Rules} {tag : Nat} {i rem : Bytes} {o : BerObject} :
    TypedBy D R tag 4 i rem o ↔ ∃ c, OctetsBy R tag i rem o.header c ∧ o.content = .octetString c := by
  unfold TypedBy OctetsBy
  simp only [denotes_universal (D := D) (d := 49) (t := 4) (by decide), leaf_octets]
  constructor
  · rintro ⟨c, h1, h2, h3, h4, h5⟩
    exact ⟨c, ⟨h1, h2, fun l hl => (h3 l hl).elim id (fun h => absurd h.2 (by decide))⟩, h5⟩
  · rintro ⟨c, ⟨h1, h2, h3⟩, h5⟩
    exact ⟨c, h1, h2, fun l hl => .inl (h3 l hl), fun _ => ⟨by simp, by simp, by simp, by simp⟩, h5⟩

theorem typedBy_oid {D : Deps} {tag : Nat} {i rem : Bytes} {o : BerObject} :
    TypedBy D .ber tag 6 i rem o ↔ ∃ c, FramedBy .ber i rem o.header c ∧ o.header.tag = tag ∧
      (∀ l, o.header.length = .definite l → l < 2 ^ 32) ∧ o.content = .oid c := by
  unfold TypedBy
  simp only [denotes_universal (D := D) (d := 49) (t := 6) (by decide), leaf_oid]
  constructor
  · rintro ⟨c, h1, h2, h3, h4, h5⟩
    exact ⟨c, h1, h2, fun l hl => (h3 l hl).elim id (fun h => absurd h.2 (by decide)), h5⟩
  · rintro ⟨c, h1, h2, h3, h5⟩
    exact ⟨c, h1, h2, fun l hl => .inl (h3 l hl), by simp, h5⟩

/-- `parse_*_{sequence,set}_defined_g` succeeds exactly on an element with the tag number whose contents octets the
closure accepts. -/
theorem definedG_ok {O : Type} {R : Rules} {tag : Nat} {f : Bytes → Header → IRes BerError O} {i rem : Bytes} {v : O} :
    definedG R tag f i = .ok (rem, v) ↔
      ∃ h c rest, FramedBy R i rem h c ∧ h.tag = tag ∧ f c h = .ok (rest, v) := by
  unfold definedG
  rw [C38_container_ok]
  constructor
  · rintro ⟨h, c, rest, h1, h2⟩
    obtain ⟨_, h3, h4⟩ := bind_eq_ok.1 h2
    rw [liftResE_eq_ok] at h3
    exact ⟨h, c, rest, h1, assertTag_ok.1 h3, h4⟩
  · rintro ⟨h, c, rest, h1, h2, h3⟩
    refine ⟨h, c, rest, h1, ?_⟩
    rw [assertTag_ok.2 h2]
    exact h3

theorem definedG_returns {O : Type} {R : Rules} {tag : Nat} {f : Bytes → Header → IRes BerError O} {i : Bytes}
    (hf : ∀ c h, (f c h).Returns) : (definedG R tag f i).Returns := by
  unfold definedG
  refine returns_container R fun _ h c _ => returns_bind ?_ fun _ _ => hf c h
  rw [returns_liftResE]
  exact returns_assertTag _ _

theorem mapResult_ok {α β : Type} {g : α → Res β} {p : Bytes → IRes BerError α} {i rem : Bytes} {v : β} :
    mapResult g p i = .ok (rem, v) ↔ ∃ a, p i = .ok (rem, a) ∧ g a = .ok v := by
  unfold mapResult
  constructor
  · intro h
    obtain ⟨⟨r, a⟩, h1, h2⟩ := bind_eq_ok.1 h
    cases h3 : g a with
    | ok w =>
      simp only [h3, ok.injEq, Prod.mk.injEq] at h2
      obtain ⟨rfl, rfl⟩ := h2
      exact ⟨a, h1, h3⟩
    | err e => simp [h3] at h2
    | panic => simp [h3] at h2
    | diverge => simp [h3] at h2
  · rintro ⟨a, h1, h2⟩
    rw [h1]
    simp only [ok_bind, h2]

/-! ## MyObject -/

theorem myObjectFields_iff {D : Deps} {R : Rules} {i rem : Bytes} {a : Nat} {b : Bytes} :
    myObjectFields D R i = .ok (rem, (a, b)) ↔ ∃ mid h, UnsignedBy R i mid a ∧ OctetsBy R 4 mid rem h b := by
  unfold myObjectFields
  constructor
  · intro hh
    obtain ⟨⟨mid, a'⟩, h1, h2⟩ := bind_eq_ok.1 hh
    obtain ⟨⟨rem', o⟩, h3, h4⟩ := bind_eq_ok.1 h2
    obtain ⟨c, h5, h6⟩ := typedBy_octets.1 (parseTyped_iff.1 h3)
    have h7 : o.asSlice = .ok c := by unfold BerObject.asSlice; rw [h6]; rfl
    simp only [h7, ok.injEq, Prod.mk.injEq] at h4
    obtain ⟨rfl, rfl, rfl⟩ := h4
    exact ⟨mid, o.header, parseU32_iff.1 h1, h5⟩
  · rintro ⟨mid, h, h1, h2⟩
    rw [parseU32_iff.2 h1]
    simp only [ok_bind]
    rw [show parseTyped D R Tag.octetString mid = .ok (rem, .mk h (.octetString b)) from
      parseTyped_iff.2 (typedBy_octets.2 ⟨b, h2, rfl⟩)]
    rfl

/-- C117: `parse_myobject` accepts exactly a SEQUENCE (SET) that starts with an unsigned integer and an octet string, and
gives these two. -/
theorem C117_my_object (D : Deps) (R : Rules) (tag : Nat) (i rem : Bytes) (a : Nat) (b : Bytes) :
    parseMyObject D R tag i = .ok (rem, (a, b)) ↔ MyObjectBy R tag i rem a b := by
  unfold parseMyObject
  rw [definedG_ok]
  simp only [myObjectFields_iff]
  constructor
  · rintro ⟨h, c, rest, h1, h2, mid, h', h3, h4⟩; exact ⟨h, c, mid, h', rest, h1, h2, h3, h4⟩
  · rintro ⟨h, c, mid, h', rest, h1, h2, h3, h4⟩; exact ⟨h, c, rest, h1, h2, mid, h', h3, h4⟩

/-- C117: the version with `parse_*_container` accepts the same as the version for a SEQUENCE. -/
theorem C117_my_object_container (D : Deps) (R : Rules) (i rem : Bytes) (a : Nat) (b : Bytes) :
    parseMyObjectContainer D R i = .ok (rem, (a, b)) ↔ MyObjectBy R 16 i rem a b := by
  unfold parseMyObjectContainer
  rw [C38_container_ok]
  constructor
  · rintro ⟨h, c, rest, h1, h2⟩
    by_cases ht : h.tag = Tag.sequence
    · rw [if_neg (by simpa using ht), myObjectFields_iff] at h2
      obtain ⟨mid, h', h3, h4⟩ := h2
      exact ⟨h, c, mid, h', rest, h1, ht, h3, h4⟩
    · rw [if_pos ht] at h2
      simp at h2
  · rintro ⟨h, c, mid, h', rest, h1, h2, h3, h4⟩
    refine ⟨h, c, rest, h1, ?_⟩
    rw [if_neg (by simp [h2, Tag.sequence]), myObjectFields_iff]
    exact ⟨mid, h', h3, h4⟩

/-- C117: on an element with another tag number the two versions give different errors, and neither reads a field. -/
theorem C117_my_object_other_tag (D : Deps) (R : Rules) (i rem c : Bytes) (h : Header) (hF : FramedBy R i rem h c)
    (ht : h.tag ≠ 16) :
    parseMyObject D R 16 i = .err (.error (.unexpectedTag (some 16) h.tag)) ∧
    parseMyObjectContainer D R i = .err (.error .berTypeError) := by
  refine ⟨?_, ?_⟩
  · unfold parseMyObject
    rw [C38_defined R 16 _ i rem c h hF, if_neg ht]
    rfl
  · unfold parseMyObjectContainer
    rw [C38_container R _ i rem c h hF, if_pos (show h.tag ≠ Tag.sequence from ht)]
    rfl

example := C117_my_object_other_tag Tests.D0 .der [0x31, 0x02, 0x05, 0x00, 9] [9] [0x05, 0x00] _
  ((frame_iff (E := BerError)).1 rfl) (by decide)

theorem myObjectFields_returns (D : Deps) (R : Rules) (i : Bytes) : (myObjectFields D R i).Returns := by
  unfold myObjectFields
  refine returns_bind (parseU32_returns R i) fun r _ => returns_bind (parseTyped_returns D R _ _) fun s hs => ?_
  obtain ⟨s1, o⟩ := s
  obtain ⟨c, _, h6⟩ := typedBy_octets.1 (parseTyped_iff.1 hs)
  have h7 : o.asSlice = .ok c := by unfold BerObject.asSlice; rw [h6]; rfl
  simp only [h7]
  trivial

/-- C117: `unwrap()` in these programs never panics, whatever the input. -/
theorem C117_my_object_total (D : Deps) (R : Rules) (tag : Nat) (i : Bytes) :
    (parseMyObject D R tag i).Returns ∧ (parseMyObjectContainer D R i).Returns := by
  refine ⟨definedG_returns fun c _ => myObjectFields_returns D R c, ?_⟩
  refine returns_container R fun _ h c _ => ?_
  split
  · trivial
  · exact myObjectFields_returns D R c

/-! ## Tagged integers -/

theorem asU32_integer {o : BerObject} {c : Bytes} {v : Nat} (h : o.content = .integer c) :
    o.asU32 = .ok v ↔ twosComplement c = v ∧ v < 2 ^ 32 := (C17_as_u64_ok_iff o c h v).2

theorem explicitInt_iff {D : Deps} {R : Rules} {i rem : Bytes} {o : BerObject} :
    taggedExplicit R 2 (parseTyped D R Tag.integer) i = .ok (rem, o) ↔ ∃ h k o1 rest c, FramedBy R i rem h k ∧
      h.cls ≠ .universal ∧ h.tag = 2 ∧ h.constructed = true ∧ IntegerBy R 2 k rest o1.header c ∧
      o1.content = .integer c ∧ o = .mk h (.tagged h.cls 2 o1) := by
  rw [C39_explicit_object]
  constructor
  · rintro ⟨h, k, rest, o1, h1, h2, h3, h4, h5, h6⟩
    obtain ⟨c, h7, h8⟩ := typedBy_integer.1 (parseTyped_iff.1 h5)
    exact ⟨h, k, o1, rest, c, h1, h2, h3, h4, h7, h8, h6⟩
  · rintro ⟨h, k, o1, rest, c, h1, h2, h3, h4, h7, h8, h6⟩
    exact ⟨h, k, rest, o1, h1, h2, h3, h4, parseTyped_iff.2 (typedBy_integer.2 ⟨c, h7, h8⟩), h6⟩

/-- C117: `parse_int_explicit` with `map_res` accepts exactly `[2] EXPLICIT INTEGER` with a value that fits in 32 bits. -/
theorem C117_explicit (D : Deps) (R : Rules) (i rem : Bytes) (v : Nat) :
    parseIntExplicit D R i = .ok (rem, v) ↔ ∃ c, ExplicitIntBy R i rem c ∧ twosComplement c = v ∧ v < 2 ^ 32 := by
  unfold parseIntExplicit
  rw [mapResult_ok]
  constructor
  · rintro ⟨o, h1, h2⟩
    obtain ⟨h, k, o1, rest, c, g1, g2, g3, g4, g5, g6, rfl⟩ := explicitInt_iff.1 h1
    exact ⟨c, ⟨h, k, o1.header, rest, g1, g2, g3, g4, g5⟩, (asU32_integer g6).1 h2⟩
  · rintro ⟨c, ⟨h, k, h', rest, g1, g2, g3, g4, g5⟩, hv⟩
    exact ⟨_, explicitInt_iff.2 ⟨h, k, .mk h' (.integer c), rest, c, g1, g2, g3, g4, g5, rfl, rfl⟩,
      (asU32_integer (o := .mk h' (.integer c)) rfl).2 hv⟩

/-- C117: the version with `parse_*_tagged_explicit_g` accepts the same. -/
theorem C117_explicit_g (D : Deps) (R : Rules) (i rem : Bytes) (v : Nat) :
    parseIntExplicitG D R i = .ok (rem, v) ↔ ∃ c, ExplicitIntBy R i rem c ∧ twosComplement c = v ∧ v < 2 ^ 32 := by
  unfold parseIntExplicitG
  rw [C39_explicit_ok]
  constructor
  · rintro ⟨h, k, rest, g1, g2, g3, g4, g5⟩
    obtain ⟨⟨r, o⟩, h1, h2⟩ := bind_eq_ok.1 g5
    obtain ⟨w, h3, h4⟩ := bind_eq_ok.1 h2
    simp only [ok.injEq, Prod.mk.injEq] at h4
    obtain ⟨rfl, rfl⟩ := h4
    obtain ⟨c, h5, h6⟩ := typedBy_integer.1 (parseTyped_iff.1 h1)
    exact ⟨c, ⟨h, k, o.header, r, g1, g2, g3, g4, h5⟩, (asU32_integer h6).1 (liftRes_eq_ok.1 h3)⟩
  · rintro ⟨c, ⟨h, k, h', rest, g1, g2, g3, g4, g5⟩, hv⟩
    refine ⟨h, k, rest, g1, g2, g3, g4, ?_⟩
    rw [show parseTyped D R Tag.integer k = .ok (rest, .mk h' (.integer c)) from
      parseTyped_iff.2 (typedBy_integer.2 ⟨c, g5, rfl⟩)]
    simp only [ok_bind]
    rw [(asU32_integer (o := .mk h' (.integer c)) rfl).2 hv]
    rfl

/-- Out of range for 32 bits: the error of `as_u32`. -/
def Spec.rangeError (v : Int) : BerError := if v < 0 then .integerNegative else .integerTooLarge

theorem asU32_range {o : BerObject} {c : Bytes} (h : o.content = .integer c)
    (hv : ¬ (0 ≤ twosComplement c ∧ twosComplement c < 2 ^ 32)) : o.asU32 = .err (rangeError (twosComplement c)) := by
  rw [C17_as_u32_exact o c h]
  unfold unsignedResult rangeError
  split
  · rfl
  · rw [if_pos (by omega)]

/-- -1. -/
theorem explicitInt_negative : ExplicitIntBy .ber [0xa2, 0x03, 0x02, 0x01, 0xff, 9] [9] [0xff] :=
  ⟨⟨.contextSpecific, true, 2, .definite 3, some [0xa2]⟩, [0x02, 0x01, 0xff],
    ⟨.universal, false, 2, .definite 1, some [2]⟩, [], (frame_iff (E := BerError)).1 rfl, by decide, rfl, rfl,
    (frame_iff (E := BerError)).1 rfl, rfl, by simp, by simp⟩

/-- C117: an integer out of range is `NomError(MapRes)` with `map_res` and the error of `as_u32` with the generic
version. -/
theorem C117_explicit_range (D : Deps) (R : Rules) (i rem c : Bytes) (h : ExplicitIntBy R i rem c)
    (hv : ¬ (0 ≤ twosComplement c ∧ twosComplement c < 2 ^ 32)) :
    parseIntExplicit D R i = .err (.error (.nomError .mapRes)) ∧
    parseIntExplicitG D R i = .err (.error (rangeError (twosComplement c))) := by
  obtain ⟨h, k, h', rest, g1, g2, g3, g4, g5⟩ := h
  have hr := asU32_range (o := .mk h' (.integer c)) rfl hv
  refine ⟨?_, ?_⟩
  · unfold parseIntExplicit mapResult
    rw [explicitInt_iff.2 ⟨h, k, .mk h' (.integer c), rest, c, g1, g2, g3, g4, g5, rfl, rfl⟩]
    simp only [ok_bind, BerObject.asTagged, BerObject.content, Content.asTagged]
    rw [hr]
  · unfold parseIntExplicitG
    rw [C39_explicit R 2 _ i rem k h g1, if_neg g2, if_neg (by simpa using g3), if_neg (by simp [g4])]
    rw [show parseTyped D R Tag.integer k = .ok (rest, .mk h' (.integer c)) from
      parseTyped_iff.2 (typedBy_integer.2 ⟨c, g5, rfl⟩)]
    simp only [ok_bind]
    rw [hr]
    rfl

example := C117_explicit_range Tests.D0 _ _ _ _ explicitInt_negative (by decide +kernel)

theorem container_then {O V : Type} {R : Rules} {f : Bytes → Header → IRes BerError O}
    {g : O → Outcome (NomErr BerError) V} (i : Bytes) :
    container R (fun c h => f c h >>? fun r => g r.2 >>? fun v => .ok (r.1, v)) i =
      (container R f i >>? fun r => g r.2 >>? fun v => .ok (r.1, v)) := by
  unfold container
  cases (frame R i : IRes BerError (Header × Bytes)) with
  | ok s =>
    simp only [ok_bind]
    cases f s.2.2 s.2.1 with
    | ok r => simp only [ok_bind]; cases g r.2 <;> rfl
    | err e => rfl
    | panic => rfl
    | diverge => rfl
  | err e => rfl
  | panic => rfl
  | diverge => rfl

theorem explicitG_eq (D : Deps) (R : Rules) (i : Bytes) : parseIntExplicitG D R i =
    (taggedExplicit R 2 (parseTyped D R Tag.integer) i >>? fun r =>
      liftRes (r.2.asTagged >>? fun t => t.2.2.asU32) >>? fun v => .ok (r.1, v)) := by
  unfold parseIntExplicitG taggedExplicit taggedExplicitG
  refine Eq.trans ?_ (container_then (g := fun o : BerObject => liftRes (o.asTagged >>? fun t => t.2.2.asU32)) i)
  congr 1
  funext c h
  split
  · rfl
  · cases (liftResE (h.assertTag 2) : Outcome (NomErr BerError) Unit) with
    | ok _ =>
      simp only [ok_bind]
      cases (liftResE h.assertConstructed : Outcome (NomErr BerError) Unit) with
      | ok _ =>
        simp only [ok_bind]
        cases parseTyped D R Tag.integer c <;> rfl
      | err e => rfl
      | panic => rfl
      | diverge => rfl
    | err e => rfl
    | panic => rfl
    | diverge => rfl

/-- C117: on every other input the two versions give the same answer, errors included. -/
theorem C117_explicit_agree (D : Deps) (R : Rules) (i : Bytes)
    (hv : ∀ rem c, ExplicitIntBy R i rem c → 0 ≤ twosComplement c ∧ twosComplement c < 2 ^ 32) :
    parseIntExplicit D R i = parseIntExplicitG D R i := by
  cases hE : taggedExplicit R 2 (parseTyped D R Tag.integer) i with
  | ok r =>
    obtain ⟨rem, o⟩ := r
    obtain ⟨h, k, o1, rest, c, g1, g2, g3, g4, g5, g6, rfl⟩ := explicitInt_iff.1 hE
    have hI : ExplicitIntBy R i rem c := ⟨h, k, o1.header, rest, g1, g2, g3, g4, g5⟩
    obtain ⟨v, hv1⟩ := Int.eq_ofNat_of_zero_le (hv rem c hI).1
    have hlt : v < 2 ^ 32 := by have := (hv rem c hI).2; omega
    rw [(C117_explicit D R i rem v).2 ⟨c, hI, hv1, hlt⟩, (C117_explicit_g D R i rem v).2 ⟨c, hI, hv1, hlt⟩]
  | err e => rw [explicitG_eq]; unfold parseIntExplicit mapResult; rw [hE]; rfl
  | panic => rw [explicitG_eq]; unfold parseIntExplicit mapResult; rw [hE]; rfl
  | diverge => rw [explicitG_eq]; unfold parseIntExplicit mapResult; rw [hE]; rfl

/-- 65537 is in range. -/
example := C117_explicit_agree Tests.D0 .der [0xa2, 0x05, 0x02, 0x03, 0x01, 0x00, 0x01] fun rem c h => by
  obtain ⟨h, k, h', rest, h1, h2, h3, h4, h5, -⟩ := h
  cases (frame_iff (E := BerError)).2 h1
  cases (frame_iff (E := BerError)).2 h5
  decide +kernel

theorem implicitInt_iff {D : Deps} {R : Rules} {i rem : Bytes} {o : BerObject} :
    taggedImplicit R 2 (parseContentOf D R Tag.integer) i = .ok (rem, o) ↔ ∃ c, IntegerBy R 2 i rem o.header c ∧
      o.header.length ≠ .indefinite ∧ o.content = .integer c := by
  have key : taggedImplicit R 2 (parseContentOf D R Tag.integer) i = .ok (rem, o) ↔
      TypedBy D R 2 2 i rem o ∧ o.header.length ≠ .indefinite := by
    cases R
    · exact implicitBy_ber
    · exact implicitBy_der
  rw [key, typedBy_integer]
  constructor
  · rintro ⟨⟨c, h1, h2⟩, h3⟩; exact ⟨c, h1, h3, h2⟩
  · rintro ⟨c, h1, h3, h2⟩; exact ⟨⟨c, h1, h2⟩, h3⟩

theorem implicitG_eq (D : Deps) (R : Rules) (i : Bytes) : parseIntImplicitG D R i =
    (taggedImplicit R 2 (parseContentOf D R Tag.integer) i >>? fun r =>
      liftRes r.2.asU32 >>? fun v => .ok (r.1, v)) := by
  unfold parseIntImplicitG taggedImplicit taggedImplicitG
  refine Eq.trans ?_ (container_then (g := fun o : BerObject => liftRes o.asU32) i)
  congr 1
  funext c h
  cases (liftResE (h.assertTag 2) : Outcome (NomErr BerError) Unit) with
  | ok _ =>
    simp only [ok_bind]
    cases parseContentOf D R Tag.integer c h maxRecursion <;> rfl
  | err e => rfl
  | panic => rfl
  | diverge => rfl

/-- C117: `parse_int_implicit` with `map_res` accepts exactly the elements with tag number 2 (of any class, see C40) and a
value that fits in 32 bits. -/
theorem C117_implicit (D : Deps) (R : Rules) (i rem : Bytes) (v : Nat) :
    parseIntImplicit D R i = .ok (rem, v) ↔ ∃ c, ImplicitIntBy R i rem c ∧ twosComplement c = v ∧ v < 2 ^ 32 := by
  unfold parseIntImplicit
  rw [mapResult_ok]
  constructor
  · rintro ⟨o, h1, h2⟩
    obtain ⟨c, g1, g2, g3⟩ := implicitInt_iff.1 h1
    exact ⟨c, ⟨o.header, g1, g2⟩, (asU32_integer g3).1 h2⟩
  · rintro ⟨c, ⟨h, g1, g2⟩, hv⟩
    exact ⟨.mk h (.integer c), implicitInt_iff.2 ⟨c, g1, g2, rfl⟩,
      (asU32_integer (o := .mk h (.integer c)) rfl).2 hv⟩

/-- C117: the version with `parse_*_tagged_implicit_g` accepts the same. -/
theorem C117_implicit_g (D : Deps) (R : Rules) (i rem : Bytes) (v : Nat) :
    parseIntImplicitG D R i = .ok (rem, v) ↔ ∃ c, ImplicitIntBy R i rem c ∧ twosComplement c = v ∧ v < 2 ^ 32 := by
  rw [← C117_implicit D R i rem v, implicitG_eq]
  unfold parseIntImplicit
  rw [mapResult_ok]
  constructor
  · intro hh
    obtain ⟨⟨r, o⟩, h1, h2⟩ := bind_eq_ok.1 hh
    obtain ⟨w, h3, h4⟩ := bind_eq_ok.1 h2
    simp only [ok.injEq, Prod.mk.injEq] at h4
    obtain ⟨rfl, rfl⟩ := h4
    exact ⟨o, h1, liftRes_eq_ok.1 h3⟩
  · rintro ⟨o, h1, h2⟩
    rw [h1]
    simp only [ok_bind]
    rw [h2]
    rfl

/-- -1. -/
theorem implicitInt_negative : ImplicitIntBy .ber [0x82, 0x01, 0xff] [] [0xff] :=
  ⟨⟨.contextSpecific, false, 2, .definite 1, some [0x82]⟩,
    ⟨(frame_iff (E := BerError)).1 rfl, rfl, by simp, by simp⟩, by simp⟩

/-- C117: an integer out of range is `NomError(MapRes)` with `map_res` and the error of `as_u32` with the generic
version. -/
theorem C117_implicit_range (D : Deps) (R : Rules) (i rem c : Bytes) (h : ImplicitIntBy R i rem c)
    (hv : ¬ (0 ≤ twosComplement c ∧ twosComplement c < 2 ^ 32)) :
    parseIntImplicit D R i = .err (.error (.nomError .mapRes)) ∧
    parseIntImplicitG D R i = .err (.error (rangeError (twosComplement c))) := by
  obtain ⟨h, g1, g2⟩ := h
  have hr := asU32_range (o := .mk h (.integer c)) rfl hv
  rw [implicitG_eq]
  unfold parseIntImplicit mapResult
  rw [implicitInt_iff (o := .mk h (.integer c)).2 ⟨c, g1, g2, rfl⟩]
  simp only [ok_bind]
  rw [hr]
  exact ⟨rfl, rfl⟩

example := C117_implicit_range Tests.D0 _ _ _ _ implicitInt_negative (by decide +kernel)

/-- C117: on every other input the two versions give the same answer, errors included. -/
theorem C117_implicit_agree (D : Deps) (R : Rules) (i : Bytes)
    (hv : ∀ rem c, ImplicitIntBy R i rem c → 0 ≤ twosComplement c ∧ twosComplement c < 2 ^ 32) :
    parseIntImplicit D R i = parseIntImplicitG D R i := by
  cases hE : taggedImplicit R 2 (parseContentOf D R Tag.integer) i with
  | ok r =>
    obtain ⟨rem, o⟩ := r
    obtain ⟨c, g1, g2, g3⟩ := implicitInt_iff.1 hE
    have hI : ImplicitIntBy R i rem c := ⟨o.header, g1, g2⟩
    obtain ⟨v, hv1⟩ := Int.eq_ofNat_of_zero_le (hv rem c hI).1
    have hlt : v < 2 ^ 32 := by have := (hv rem c hI).2; omega
    rw [(C117_implicit D R i rem v).2 ⟨c, hI, hv1, hlt⟩, (C117_implicit_g D R i rem v).2 ⟨c, hI, hv1, hlt⟩]
  | err e => rw [implicitG_eq]; unfold parseIntImplicit mapResult; rw [hE]; rfl
  | panic => rw [implicitG_eq]; unfold parseIntImplicit mapResult; rw [hE]; rfl
  | diverge => rw [implicitG_eq]; unfold parseIntImplicit mapResult; rw [hE]; rfl

example := C117_implicit_agree Tests.D0 .ber [0x82, 0x01, 0x05] fun rem c h => by
  obtain ⟨h, ⟨h1, -⟩, -⟩ := h
  cases (frame_iff (E := BerError)).2 h1
  decide +kernel

/-- C117: `parse_implicit_0_octetstring` accepts exactly the elements with tag number 2 (of any class) and definite
length, and gives their contents octets as an OCTET STRING. -/
theorem C117_implicit_octets (D : Deps) (R : Rules) (i rem : Bytes) (x : Content) :
    parseImplicitOctets D R i = .ok (rem, x) ↔
      ∃ h c, OctetsBy R 2 i rem h c ∧ h.length ≠ .indefinite ∧ x = .octetString c := by
  have key : ∀ o : BerObject, taggedImplicit R 2 (parseContentOf D R 4) i = .ok (rem, o) ↔
      TypedBy D R 2 4 i rem o ∧ o.header.length ≠ .indefinite := by
    intro o
    cases R
    · exact implicitBy_ber
    · exact implicitBy_der
  have step : parseImplicitOctets D R i = .ok (rem, x) ↔
      ∃ h, taggedImplicit R 2 (parseContentOf D R 4) i = .ok (rem, .mk h x) := by
    unfold parseImplicitOctets taggedImplicit taggedImplicitG
    simp only [C38_container_ok]
    constructor
    · rintro ⟨h, c, rest, h1, h2⟩
      obtain ⟨u, h3, h4⟩ := bind_eq_ok.1 h2
      refine ⟨h, h, c, rest, h1, ?_⟩
      rw [h3]
      simp only [ok_bind]
      rw [show parseContentOf D R 4 c h maxRecursion = .ok (rest, x) from h4]
      rfl
    · rintro ⟨h', h, c, rest, h1, h2⟩
      obtain ⟨u, h3, h4⟩ := bind_eq_ok.1 h2
      obtain ⟨⟨r, y⟩, h5, h6⟩ := bind_eq_ok.1 h4
      simp only [ok.injEq, Prod.mk.injEq, BerObject.mk.injEq] at h6
      obtain ⟨rfl, _, rfl⟩ := h6
      refine ⟨h, c, r, h1, ?_⟩
      rw [h3]
      exact h5
  rw [step]
  simp only [key, typedBy_octets]
  constructor
  · rintro ⟨h, ⟨c, h1, h2⟩, h3⟩; exact ⟨h, c, h1, h3, h2⟩
  · rintro ⟨h, c, h1, h3, h2⟩; exact ⟨h, ⟨c, h1, h2⟩, h3⟩

/-- C117: the programs with tagged integers always give an answer. -/
theorem C117_tagged_total (D : Deps) (R : Rules) (i : Bytes) :
    (parseIntExplicit D R i).Returns ∧ (parseIntExplicitG D R i).Returns ∧ (parseIntImplicit D R i).Returns ∧
    (parseIntImplicitG D R i).Returns := by
  have hE : (taggedExplicit R 2 (parseTyped D R Tag.integer) i).Returns := by
    have := C97_total D R (.explicit 2 (.typed 2)) i
    cases R <;> exact this
  have hI : (taggedImplicit R 2 (parseContentOf D R Tag.integer) i).Returns := by
    have := C97_total D R (.implicit 2 2) i
    cases R <;> exact this
  have u32 : ∀ (o : BerObject) (c : Bytes), o.content = .integer c → o.asU32.Returns := by
    intro o c h
    rw [C17_as_u32_exact o c h]
    unfold unsignedResult
    split
    · trivial
    · split <;> trivial
  have tE : ∀ r, taggedExplicit R 2 (parseTyped D R Tag.integer) i = .ok r →
      (r.2.asTagged >>? fun t => t.2.2.asU32).Returns := by
    rintro ⟨rem, o⟩ h
    obtain ⟨h, k, o1, rest, c, g1, g2, g3, g4, g5, g6, rfl⟩ := explicitInt_iff.1 h
    exact u32 o1 c g6
  have tI : ∀ r, taggedImplicit R 2 (parseContentOf D R Tag.integer) i = .ok r → r.2.asU32.Returns := by
    rintro ⟨rem, o⟩ h
    obtain ⟨c, g1, g2, g3⟩ := implicitInt_iff.1 h
    exact u32 o c g3
  have mapR : ∀ {α β : Type} (g : α → Res β) (p : Bytes → IRes BerError α), (p i).Returns →
      (∀ r, p i = .ok r → (g r.2).Returns) → (mapResult g p i).Returns := by
    intro α β g p h1 h2
    unfold mapResult
    refine returns_bind h1 fun r hr => ?_
    have := h2 r hr
    cases hg : g r.2 with
    | ok v => trivial
    | err e => trivial
    | panic => rw [hg] at this; exact this
    | diverge => rw [hg] at this; exact this
  refine ⟨mapR _ _ hE tE, ?_, mapR _ _ hI tI, ?_⟩
  · rw [explicitG_eq]
    exact returns_bind hE fun r hr => returns_bind (by simpa using tE r hr) fun _ _ => trivial
  · rw [implicitG_eq]
    exact returns_bind hI fun r hr => returns_bind (by simpa using tI r hr) fun _ _ => trivial

/-! ## MyStruct -/

theorem structFields_iff {D : Deps} {i rem : Bytes} {a b : BerObject} :
    structFields D i = .ok (rem, (a, b)) ↔ TwoIntegers i rem a b := by
  unfold structFields TwoIntegers
  constructor
  · intro hh
    obtain ⟨⟨mid, a'⟩, h1, h2⟩ := bind_eq_ok.1 hh
    obtain ⟨⟨rem', b'⟩, h3, h4⟩ := bind_eq_ok.1 h2
    simp only [ok.injEq, Prod.mk.injEq] at h4
    obtain ⟨rfl, rfl, rfl⟩ := h4
    obtain ⟨ca, h5, h6⟩ := typedBy_integer.1 (typedBy_ber.1 h1)
    obtain ⟨cb, h7, h8⟩ := typedBy_integer.1 (typedBy_ber.1 h3)
    exact ⟨ca, cb, mid, h5, h6, h7, h8⟩
  · rintro ⟨ca, cb, mid, h5, h6, h7, h8⟩
    rw [show parseBerWithTag D Tag.integer i = .ok (mid, a) from typedBy_ber.2 (typedBy_integer.2 ⟨ca, h5, h6⟩)]
    simp only [ok_bind]
    rw [show parseBerWithTag D Tag.integer mid = .ok (rem, b) from typedBy_ber.2 (typedBy_integer.2 ⟨cb, h7, h8⟩)]
    rfl

theorem structFieldsEof_iff {D : Deps} {i rem : Bytes} {a b : BerObject} :
    structFieldsEof D i = .ok (rem, (a, b)) ↔ rem = [] ∧ TwoIntegers i [] a b := by
  unfold structFieldsEof
  constructor
  · intro hh
    obtain ⟨⟨r, v⟩, h1, h2⟩ := bind_eq_ok.1 hh
    obtain ⟨u, h3, h4⟩ := bind_eq_ok.1 h2
    simp only [ok.injEq, Prod.mk.injEq] at h4
    obtain ⟨rfl, rfl⟩ := h4
    cases r with
    | nil => exact ⟨rfl, structFields_iff.1 h1⟩
    | cons _ _ => simp [eof] at h3
  · rintro ⟨rfl, h⟩
    rw [structFields_iff.2 h]
    rfl

/-- C117: `parse_struct01` accepts exactly a DER-framed SEQUENCE whose contents start with two integers; octets after them
are ignored. -/
theorem C117_struct01 (D : Deps) (i rem : Bytes) (a b : BerObject) :
    parseStruct01 D i = .ok (rem, (a, b)) ↔
      ∃ h c rest, FramedBy .der i rem h c ∧ h.tag = 16 ∧ TwoIntegers c rest a b := by
  unfold parseStruct01
  rw [definedG_ok]
  simp only [structFields_iff]
  rfl

/-- C117: `parse_struct01_complete` accepts exactly a SEQUENCE of two integers. -/
theorem C117_struct01_complete (D : Deps) (i rem : Bytes) (a b : BerObject) :
    parseStruct01Complete D i = .ok (rem, (a, b)) ↔
      ∃ h c, FramedBy .der i rem h c ∧ h.tag = 16 ∧ TwoIntegers c [] a b := by
  unfold parseStruct01Complete
  rw [definedG_ok]
  simp only [structFieldsEof_iff]
  constructor
  · rintro ⟨h, c, _, h1, h2, rfl, h3⟩; exact ⟨h, c, h1, h2, h3⟩
  · rintro ⟨h, c, h1, h2, h3⟩; exact ⟨h, c, [], h1, h2, rfl, h3⟩

/-- Two integers and two octets. -/
theorem twoIntegers_garbage : TwoIntegers [0x02, 0x01, 0x05, 0x02, 0x01, 0x06, 0xff, 0xff] [0xff, 0xff]
    (.mk ⟨.universal, false, 2, .definite 1, some [2]⟩ (.integer [5]))
    (.mk ⟨.universal, false, 2, .definite 1, some [2]⟩ (.integer [6])) :=
  ⟨[5], [6], [0x02, 0x01, 0x06, 0xff, 0xff],
    ⟨(frame_iff (E := BerError)).1 rfl, rfl, by simp [BerObject.header], by simp⟩, rfl,
    ⟨(frame_iff (E := BerError)).1 rfl, rfl, by simp [BerObject.header], by simp⟩, rfl⟩

/-- C117: octets after the two integers make `parse_struct01_complete` fail with `NomError(Eof)`; `parse_struct01` accepts
the same input. -/
theorem C117_struct01_garbage (D : Deps) (i rem c rest : Bytes) (h : Header) (a b : BerObject)
    (hF : FramedBy .der i rem h c) (ht : h.tag = 16) (hT : TwoIntegers c rest a b) (hr : rest ≠ []) :
    parseStruct01 D i = .ok (rem, (a, b)) ∧
    parseStruct01Complete D i = .err (.error (.nomError .eof)) := by
  refine ⟨(C117_struct01 D i rem a b).2 ⟨h, c, rest, hF, ht, hT⟩, ?_⟩
  unfold parseStruct01Complete
  rw [C38_defined .der _ _ i rem c h hF, if_pos (show h.tag = Tag.sequence from ht)]
  unfold structFieldsEof
  rw [structFields_iff.2 hT]
  cases rest with
  | nil => exact absurd rfl hr
  | cons _ _ => rfl

example := C117_struct01_garbage Tests.D0 [0x30, 0x08, 0x02, 0x01, 0x05, 0x02, 0x01, 0x06, 0xff, 0xff, 9] [9] _ _ _ _ _
  ((frame_iff (E := BerError)).1 rfl) rfl twoIntegers_garbage (by simp)

/-- C117: `parse_struct04` accepts exactly an element with the tag number, of two integers, and refuses another tag number
with `InvalidTag` before it looks at the contents. -/
theorem C117_struct04 (D : Deps) (tag : Nat) (i rem : Bytes) (a b : BerObject) :
    (parseStruct04 D tag i = .ok (rem, (a, b)) ↔
      ∃ h c, FramedBy .der i rem h c ∧ h.tag = tag ∧ TwoIntegers c [] a b) ∧
    (∀ h c, FramedBy .der i rem h c → h.tag ≠ tag → parseStruct04 D tag i = .err (.error .invalidTag)) := by
  unfold parseStruct04
  refine ⟨?_, ?_⟩
  · rw [C38_container_ok]
    constructor
    · rintro ⟨h, c, rest, h1, h2⟩
      by_cases ht : h.tag = tag
      · rw [if_neg (by simpa using ht), structFieldsEof_iff] at h2
        exact ⟨h, c, h1, ht, h2.2⟩
      · rw [if_pos ht] at h2
        simp at h2
    · rintro ⟨h, c, h1, h2, h3⟩
      refine ⟨h, c, [], h1, ?_⟩
      rw [if_neg (by simpa using h2), structFieldsEof_iff]
      exact ⟨rfl, h3⟩
  · intro h c h1 h2
    rw [C38_container .der _ i rem c h h1, if_pos h2]
    rfl

example := (C117_struct04 Tests.D0 3 [0x30, 0x02, 0x05, 0x00, 9] [9] (.fromObj .null) (.fromObj .null)).2 _ _
  ((frame_iff (E := BerError)).1 rfl) (by decide)

theorem structFields_returns (D : Deps) (i : Bytes) : (structFields D i).Returns :=
  returns_bind (returns_parseBerWithTag D _ i) fun _ _ =>
    returns_bind (returns_parseBerWithTag D _ _) fun _ _ => trivial

theorem structFieldsEof_returns (D : Deps) (i : Bytes) : (structFieldsEof D i).Returns :=
  returns_bind (structFields_returns D i) fun s _ =>
    returns_bind (by unfold eof; split <;> trivial) fun _ _ => trivial

/-- C117: these programs always give an answer. -/
theorem C117_struct_total (D : Deps) (tag : Nat) (i : Bytes) :
    (parseStruct01 D i).Returns ∧ (parseStruct01Complete D i).Returns ∧ (parseStruct04 D tag i).Returns := by
  refine ⟨definedG_returns fun c _ => structFields_returns D c, definedG_returns fun c _ => structFieldsEof_returns D c,
    returns_container _ fun _ h c _ => ?_⟩
  split
  · trivial
  · exact structFieldsEof_returns D c

/-! ## Names -/

theorem parseAttr_iff {D : Deps} {i rem : Bytes} {v : Bytes × BerObject} :
    parseAttr D i = .ok (rem, v) ↔ AttrBy D i rem v := by
  unfold parseAttr AttrBy
  rw [definedG_ok]
  have hd : ∀ j r o, parseDirectoryString D j = .ok (r, o) ↔ ∃ t ∈ [12, 19, 22], TypedBy D .ber t t j r o := by
    intro j r o
    unfold parseDirectoryString
    rw [alt_typed (.inl rfl)]
    simp only [typedBy_ber]
    rfl
  constructor
  · rintro ⟨h, c, rest, h1, h2, h3⟩
    obtain ⟨⟨mid, b⟩, h4, h5⟩ := bind_eq_ok.1 h3
    obtain ⟨⟨r, o⟩, h6, h7⟩ := bind_eq_ok.1 h5
    simp only [ok.injEq, Prod.mk.injEq] at h7
    obtain ⟨rfl, rfl⟩ := h7
    obtain ⟨x, h8, h9⟩ := mapResult_ok.1 h4
    obtain ⟨cx, g1, g2, g3, g4⟩ := typedBy_oid.1 (typedBy_ber.1 h8)
    have : b = cx := by
      unfold BerObject.asOid at h9
      rw [g4] at h9
      simp only [Content.asOid, ok.injEq] at h9
      exact h9.symm
    subst this
    exact ⟨h, c, x.header, mid, r, h1, h2, g1, g2, g3, (hd _ _ _).1 h6⟩
  · rintro ⟨h, c, h', mid, rest, h1, h2, g1, g2, g3, g4⟩
    refine ⟨h, c, rest, h1, h2, ?_⟩
    have : mapResult (fun x => x.asOid) (parseBerWithTag D Tag.oid) c = .ok (mid, v.1) :=
      mapResult_ok.2 ⟨.mk h' (.oid v.1), typedBy_ber.2 (typedBy_oid.2 ⟨v.1, g1, g2, g3, rfl⟩), rfl⟩
    rw [this]
    simp only [ok_bind]
    rw [(hd _ _ _).2 g4]
    rfl

theorem parseRdn_iff {D : Deps} {i rem : Bytes} {v : Bytes × BerObject} :
    parseRdn D i = .ok (rem, v) ↔ RdnBy D i rem v := by
  unfold parseRdn RdnBy
  rw [definedG_ok]
  simp only [parseAttr_iff]
  rfl

theorem framedBy_shorter {R : Rules} {i rem c : Bytes} {h : Header} (hF : FramedBy R i rem h c) :
    rem.length < i.length := by
  have hne : ∀ {hb : Bytes} {h : Header}, BerHeader hb h → 0 < hb.length := by
    intro hb h H
    cases hb with
    | nil =>
      have := (headerFromBer_iff (i := []) (rem := []) (h := h)).2 ⟨[], by simp, H⟩
      exact absurd this (by intro hc; cases hc)
    | cons _ _ => simp
  cases R with
  | ber =>
    obtain ⟨e, rfl, hE⟩ := hF
    cases hE with
    | definite hb c h H _ => have := hne H; simp; omega
    | indefinite m hb es t h _ H _ _ _ => have := hne H; simp; omega
  | der =>
    obtain ⟨hb, rfl, H, _⟩ := hF
    have := hne H.1
    simp
    omega

theorem many0_asManyAs {V : Type} {f : Bytes → IRes BerError V} {P : Bytes → Bytes → V → Prop}
    (h : ∀ i rem v, f i = .ok (rem, v) ↔ P i rem v) (hs : ∀ i rem v, P i rem v → rem.length < i.length)
    (hr : ∀ i, (f i).Returns) (hf : ∀ i e, f i ≠ .err (.failure e)) {fuel : Nat} :
    ∀ {i : Bytes}, i.length < fuel →
      (∀ vs rest, many0 (complete f) fuel i = .ok (rest, vs) ↔ AsManyAs P i vs rest) ∧
      ∃ r, many0 (complete f) fuel i = .ok r := by
  induction fuel with
  | zero => intro i hi; omega
  | succ fuel ih =>
    intro i hi
    unfold many0
    cases hi' : f i with
    | ok r =>
      obtain ⟨mid, v⟩ := r
      have hP := (h _ _ _).1 hi'
      have hlt := hs _ _ _ hP
      have hc : complete f i = .ok (mid, v) := by simp [complete, hi']
      rw [hc]
      simp only [if_neg (Nat.ne_of_lt hlt)]
      obtain ⟨h1, ⟨r1, vs1⟩, h2⟩ := ih (i := mid) (by omega)
      refine ⟨fun vs rest => ⟨fun hh => ?_, fun hh => ?_⟩, (r1, v :: vs1), by rw [h2]; rfl⟩
      · obtain ⟨⟨r2, vs2⟩, h3, h4⟩ := bind_eq_ok.1 hh
        simp only [ok.injEq, Prod.mk.injEq] at h4
        obtain ⟨rfl, rfl⟩ := h4
        exact .more i mid r2 v vs2 hP ((h1 _ _).1 h3)
      · cases hh with
        | stop _ hn => exact absurd hP (hn _ _)
        | more _ mid' _ v' vs' hP' hM =>
          have := (h _ _ _).2 hP'
          rw [hi'] at this
          simp only [ok.injEq, Prod.mk.injEq] at this
          obtain ⟨rfl, rfl⟩ := this
          rw [(h1 _ _).2 hM]
          rfl
    | err e =>
      have hc : ∃ e', complete f i = .err (.error e') := by
        cases e with
        | incomplete n => exact ⟨ParseErr.ofKind i .complete, by simp only [complete, hi']⟩
        | error e => exact ⟨e, by simp only [complete, hi']⟩
        | failure e => exact absurd hi' (hf i e)
      obtain ⟨e', hc⟩ := hc
      have hn : ∀ rem v, ¬ P i rem v := fun rem v hP => by
        have := (h _ _ _).2 hP
        rw [hi'] at this
        simp at this
      rw [hc]
      refine ⟨fun vs rest => ⟨fun hh => ?_, fun hh => ?_⟩, _, rfl⟩
      · simp only [ok.injEq, Prod.mk.injEq] at hh
        obtain ⟨rfl, rfl⟩ := hh
        exact .stop i hn
      · cases hh with
        | stop _ _ => rfl
        | more _ _ _ _ _ hP _ => exact absurd hP (hn _ _)
    | panic => have := hr i; rw [hi'] at this; exact absurd this id
    | diverge => have := hr i; rw [hi'] at this; exact absurd this id

theorem definedG_no_failure {O : Type} {R : Rules} {tag : Nat} {f : Bytes → Header → IRes BerError O}
    (hf : ∀ c h e, f c h ≠ .err (.failure e)) (i : Bytes) (e : BerError) :
    definedG R tag f i ≠ .err (.failure e) := by
  intro hh
  unfold definedG container at hh
  cases hF : (frame R i : IRes BerError (Header × Bytes)) with
  | ok s =>
    obtain ⟨rem, h, c⟩ := s
    rw [hF] at hh
    simp only [ok_bind] at hh
    by_cases ht : h.tag = tag
    · rw [assertTag_ok.2 ht] at hh
      simp only [liftResE_ok, ok_bind] at hh
      cases hc : f c h with
      | ok r => rw [hc] at hh; simp at hh
      | err x => rw [hc] at hh; simp only [err_bind, err.injEq] at hh; exact hf c h e (by rw [hc, hh])
      | panic => rw [hc] at hh; simp at hh
      | diverge => rw [hc] at hh; simp at hh
    · rw [show h.assertTag tag = .err (.unexpectedTag (some tag) h.tag) by simp [Header.assertTag, ht]] at hh
      cases hh
  | err x =>
    obtain ⟨r, _, rfl⟩ := frame_err_iff.1 hF
    rw [hF] at hh
    simp only [err_bind, err.injEq] at hh
    exact refusal_ne_failure hh.symm
  | panic => rw [hF] at hh; simp at hh
  | diverge => rw [hF] at hh; simp at hh

theorem parseRdn_no_failure {D : Deps} (hT : TimesKnown D) (i : Bytes) (e : BerError) :
    parseRdn D i ≠ .err (.failure e) := by
  refine definedG_no_failure (fun c _ => definedG_no_failure (fun c _ e hh => ?_) c) i e
  cases h1 : parseBerWithTag D Tag.oid c with
  | ok r =>
    obtain ⟨mid, x⟩ := r
    obtain ⟨b, _, _, _, hb⟩ := typedBy_oid.1 (typedBy_ber.1 h1)
    have h2 : mapResult (fun x => x.asOid) (parseBerWithTag D Tag.oid) c = .ok (mid, b) :=
      mapResult_ok.2 ⟨x, h1, by unfold BerObject.asOid; rw [hb]; rfl⟩
    rw [h2] at hh
    simp only [ok_bind] at hh
    cases h3 : parseDirectoryString D mid with
    | ok r => rw [h3] at hh; simp at hh
    | err y =>
      rw [h3] at hh
      simp only [err_bind, err.injEq] at hh
      subst hh
      exact C109_failure D hT .ber (.choice 12 [19, 22]) mid e h3
    | panic => rw [h3] at hh; simp at hh
    | diverge => rw [h3] at hh; simp at hh
  | err y =>
    have h2 : mapResult (fun x => x.asOid) (parseBerWithTag D Tag.oid) c = .err y := by
      unfold mapResult; rw [h1]; rfl
    rw [h2] at hh
    simp only [err_bind, err.injEq] at hh
    subst hh
    exact C109_failure D hT .ber (.typed 6) c e h1
  | panic => have := returns_parseBerWithTag D Tag.oid c; rw [h1] at this; exact this
  | diverge => have := returns_parseBerWithTag D Tag.oid c; rw [h1] at this; exact this

theorem parseRdn_returns (D : Deps) (i : Bytes) : (parseRdn D i).Returns := by
  refine definedG_returns fun c _ => definedG_returns fun c _ => returns_bind ?_ fun r _ => returns_bind ?_ fun _ _ => trivial
  · unfold mapResult
    refine returns_bind (returns_parseBerWithTag D _ c) fun r hr => ?_
    obtain ⟨mid, x⟩ := r
    obtain ⟨b, _, _, _, hb⟩ := typedBy_oid.1 (typedBy_ber.1 hr)
    have h2 : x.asOid = .ok b := by unfold BerObject.asOid; rw [hb]; rfl
    simp only [h2]
    trivial
  · exact C97_total D .ber (.choice 12 [19, 22]) r.1

/-- C117: `parse_name` accepts exactly a SEQUENCE, and gives the attributes for as long as there are any: what follows the
first entry that is not one is dropped without an error. -/
theorem C117_name (D : Deps) (hT : TimesKnown D) (i rem : Bytes) (l : List (Bytes × BerObject)) :
    parseName D i = .ok (rem, l) ↔
      ∃ h c rest, FramedBy .der i rem h c ∧ h.tag = 16 ∧ AsManyAs (RdnBy D) c l rest := by
  unfold parseName
  rw [definedG_ok]
  have key : ∀ c rest, many0 (complete (parseRdn D)) (c.length + 1) c = .ok (rest, l) ↔ AsManyAs (RdnBy D) c l rest :=
    fun c rest => (many0_asManyAs (fun _ _ _ => parseRdn_iff)
      (fun _ _ _ ⟨_, _, _, hF, _⟩ => framedBy_shorter hF) (parseRdn_returns D) (parseRdn_no_failure hT)
      (Nat.lt_succ_self _)).1 l rest
  simp only [key]
  rfl

example := (C117_name Tests.D0 (fun _ _ _ => by simp [Tests.D0]) [0x30, 0x02, 0x31, 0x00, 9] [9] []).1 rfl

/-- C117: no SEQUENCE is refused by `parse_name`, whatever its contents. -/
theorem C117_name_never_refused (D : Deps) (hT : TimesKnown D) (i rem c : Bytes) (h : Header)
    (hF : FramedBy .der i rem h c) (ht : h.tag = 16) : ∃ l, parseName D i = .ok (rem, l) := by
  obtain ⟨⟨rest, l⟩, hm⟩ := (many0_asManyAs (fun _ _ _ => parseRdn_iff)
      (fun _ _ _ ⟨_, _, _, hF, _⟩ => framedBy_shorter hF) (parseRdn_returns D) (parseRdn_no_failure hT)
      (Nat.lt_succ_self c.length)).2
  exact ⟨l, by unfold parseName; exact definedG_ok.2 ⟨h, c, rest, hF, ht, hm⟩⟩

/-! ## Examples -/

-- the input of the documentation, /repo/src/ber/multi.rs:208-212, with an octet behind the fields and one behind the element
example : MyObjectBy .ber 16 [0x30, 0x0b, 0x02, 0x03, 0x01, 0x00, 0x01, 0x04, 0x03, 0x01, 0x00, 0x00, 0xaa, 0xbb] [0xbb]
    65537 [1, 0, 0] := (C117_my_object Tests.D0 _ _ _ _ _ _).1 rfl
example : MyObjectBy .der 17 [0x31, 0x0a, 0x02, 0x03, 0x01, 0x00, 0x01, 0x04, 0x03, 0x01, 0x00, 0x00] []
    65537 [1, 0, 0] := (C117_my_object Tests.D0 _ _ _ _ _ _).1 rfl
example : parseMyObjectContainer Tests.D0 .der [0x31, 0x00] = .err (.error .berTypeError) := rfl
example : ExplicitIntBy .der [0xa2, 0x05, 0x02, 0x03, 0x01, 0x00, 0x01] [] [1, 0, 1] := by
  refine ⟨⟨.contextSpecific, true, 2, .definite 5, some [0xa2]⟩, [0x02, 0x03, 0x01, 0x00, 0x01],
    ⟨.universal, false, 2, .definite 3, some [2]⟩, [], (frame_iff (E := BerError)).1 rfl, by decide, rfl, rfl,
    (frame_iff (E := BerError)).1 rfl, rfl, by simp, fun _ => by decide⟩
-- out of range: the two versions disagree about the error
example : parseIntExplicit Tests.D0 .ber [0xa2, 0x03, 0x02, 0x01, 0xff] = .err (.error (.nomError .mapRes)) := rfl
example : parseIntExplicitG Tests.D0 .ber [0xa2, 0x03, 0x02, 0x01, 0xff] = .err (.error .integerNegative) := rfl
example : ImplicitIntBy .ber [0x82, 0x01, 0xff] [] [0xff] :=
  ⟨⟨.contextSpecific, false, 2, .definite 1, some [0x82]⟩,
    ⟨(frame_iff (E := BerError)).1 rfl, rfl, by simp, by simp⟩, by simp⟩
-- the documentation runs its [2] IMPLICIT example on an element of the universal class, /repo/src/ber/tagged.rs:203
example : parseImplicitOctets Tests.D0 .ber [0x02, 0x05, 0x68, 0x65, 0x6c, 0x6c, 0x6f] =
    .ok ([], .octetString [0x68, 0x65, 0x6c, 0x6c, 0x6f]) := rfl
-- /repo/tests/constructed.rs:283-297
example : parseStruct01Complete Tests.D0 [0x30, 0x0c, 0x02, 0x03, 0x01, 0x00, 0x01, 0x02, 0x03, 0x01, 0x00, 0x00, 0xff, 0xff] =
    .err (.error (.nomError .eof)) := rfl
-- a name of two entries of which the second is damaged: the first one is given, without an error
example : parseName Tests.D0 [0x30, 0x1a, 0x31, 0x0b, 0x30, 0x09, 0x06, 0x03, 0x55, 0x04, 0x06, 0x13, 0x02, 0x46, 0x52,
      0x31, 0x0b, 0x30, 0x09, 0x06, 0x03, 0x55, 0x04, 0x06, 0x14, 0x02, 0x46, 0x52] =
    .ok ([], [([0x55, 0x04, 0x06], .mk ⟨.universal, false, 19, .definite 2, some [0x13]⟩ (.str .printable [0x46, 0x52]))]) :=
  rfl

end Verif
