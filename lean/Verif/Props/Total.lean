import Verif.Lemmas.Element
import Verif.Tests
/-!
# C01-C04: no panic, no endless loop

`Outcome.Returns x` says that the modelled call ended with `Ok` or `Err`: it neither panicked
nor ran out of loop fuel.
-/
namespace Verif
open Outcome

/-! ## C01 -/

/-- C01: `parse_ber`. -/
theorem C01_parse_ber_total (D : Deps) (i : Bytes) : (parseBer D i).Returns :=
  returns_parseBerAnyR D maxRecursion i

/-- C01: `parse_ber_recursive` (= `parse_ber_any_r`). -/
theorem C01_parse_ber_recursive_total (D : Deps) (d : Nat) (i : Bytes) :
    (parseBerRecursive D d i).Returns := returns_parseBerAnyR D d i

/-- C01: `parse_ber_any_with_tag_r`. -/
theorem C01_parse_ber_any_with_tag_total (D : Deps) (tag d : Nat) (i : Bytes) :
    (parseBerAnyWithTagR D tag d i).Returns := returns_parseBerAnyWithTagR D tag d i

/-- C01: `parse_ber_any`. -/
theorem C01_parse_ber_any_total (i : Bytes) : (parseBerAny i).Returns := returns_anyFromBer i

/-- C01: `ber_read_element_header` and `ber_get_object_content`. -/
theorem C01_header_and_content_total (i j : Bytes) (h : Header) (d : Nat) :
    (headerFromBer i).Returns ∧ (getObjectContent d h j).Returns :=
  ⟨returns_headerFromBer i, returns_getObjectContent d h j⟩

/-- `panic` is a reachable value of the model: `Any::bool` on an inconsistent `Any` panics, so
`Returns` is not trivially true. -/
example : (Any.mk ⟨.universal, false, 1, .definite 1, none⟩ []).bool = .panic := rfl
/-- Both `Ok` and `Err` results occur. -/
example : (parseBer Tests.D0 [0x30, 0x80, 0x02, 0x01, 0x05, 0x00, 0x00]).isOk = true := by
  decide +kernel
example : (parseBer Tests.D0 [0x30, 0x80, 0x02, 0x01, 0x05, 0x00]).isOk = false := by
  decide +kernel

/-! ## C02 -/

/-- C02: `parse_der`. -/
theorem C02_parse_der_total (D : Deps) (i : Bytes) : (parseDer D i).Returns :=
  returns_parseDerRecursive D maxRecursion i

/-- C02: `parse_der_recursive`. -/
theorem C02_parse_der_recursive_total (D : Deps) (d : Nat) (i : Bytes) :
    (parseDerRecursive D d i).Returns := returns_parseDerRecursive D d i

/-- C02: `der_read_element_header`, `der_read_element_content` for any header. -/
theorem C02_der_read_element_total (D : Deps) (i : Bytes) (h : Header) :
    (headerFromDer i).Returns ∧ (derReadElementContent D i h).Returns :=
  ⟨returns_headerFromDer i, returns_derReadElementContentRecursive D i h maxRecursion⟩

example : (parseDer Tests.D0 [0x03, 0x02, 0x03, 0xa8]).isOk = true := by decide +kernel

/-! ## C03 -/

/-- C03: content-level parsers, for any tag, length and flag, related to the data or not. -/
theorem C03_content_parsers_total (D : Deps) (i : Bytes) (tag : Nat) (len : Length) (c : Bool)
    (d : Nat) (h : Header) :
    (berReadElementContentAs D i tag len c d).Returns ∧
    (derReadElementContentAs D i tag len c d).Returns ∧
    (parseBerContent D tag i h d).Returns ∧ (parseDerContent D tag i h d).Returns :=
  ⟨returns_berReadElementContentAs .., returns_derReadElementContentAs ..,
    returns_berReadElementContentAs .., returns_derReadElementContentAs ..⟩

/-- C03: tag-specific parsers. -/
theorem C03_typed_parsers_total (D : Deps) (tag : Nat) (i : Bytes) :
    (parseBerWithTag D tag i).Returns ∧ (parseDerWithTag D tag i).Returns :=
  ⟨returns_parseBerWithTag D tag i, returns_parseDerWithTag D tag i⟩

/-- C03: native integers of any width. -/
theorem C03_native_integers_total (n : Nat) (i : Bytes) :
    (parseBerUint n i).Returns ∧ (parseBerInt n i).Returns ∧
    (parseDerUint n i).Returns ∧ (parseDerInt n i).Returns :=
  ⟨returns_parseBerUint n i, returns_parseBerInt n i, returns_parseDerUint n i,
    returns_parseDerInt n i⟩

/-- C03: `parse_ber_slice`, `parse_der_slice`. -/
theorem C03_slice_total (R : Rules) (tag : Nat) (i : Bytes) : (parseSlice R tag i).Returns :=
  returns_container R fun _ h c _ =>
    returns_bind (by simpa using returns_assertTag h tag) fun _ _ => by simp

/-- C03: `BerObject::try_from(Any)`, for any `Any`, even one whose header does not match its
data. -/
theorem C03_try_from_any_total (D : Deps) (a : Any) : (objectTryFromAny D a).Returns :=
  returns_objectTryFromAny D a

example : objectTryFromAny Tests.D0 ⟨⟨.universal, false, 1, .definite 1, none⟩, []⟩ =
    .err (.incomplete (.size 1)) := rfl

/-! ## C04 -/

section
variable {E O T : Type} [ParseErr E]

/-- C04: `parse_*_container`.  It is enough that the closure returns on the content slice. -/
theorem C04_container_total (R : Rules) (f : Bytes → Header → IRes E O) (i : Bytes)
    (hf : ∀ c h, (f c h).Returns) : (container R f i).Returns :=
  returns_container R fun _ h c _ => hf c h

example (D : Deps) (i : Bytes) := C04_container_total .ber (fun c _ => parseBer D c) i fun c _ => C01_parse_ber_total D c

/-- C04: `parse_*_sequence_defined_g`, `parse_*_set_defined_g`. -/
theorem C04_defined_total (R : Rules) (tag : Nat) (f : Bytes → Header → IRes E O) (i : Bytes)
    (hf : ∀ c h, (f c h).Returns) : (definedG R tag f i).Returns :=
  C04_container_total R _ i fun c h =>
    returns_bind (by simpa using returns_assertTag h tag) fun _ _ => hf c h

example (D : Deps) (i : Bytes) := C04_defined_total .der 16 (fun c _ => parseBer D c) i fun c _ => C01_parse_ber_total D c

/-- C04: `parse_*_sequence_of_v`, `parse_*_set_of_v`.  The element parser may consume nothing;
the only requirement besides returning is that it does not answer a remainder longer than its
input (which no parser of this library does, C05). -/
theorem C04_of_v_total_partial (R : Rules) (tag : Nat) (f : Bytes → IRes E T) (i : Bytes)
    (hf : ∀ j, (f j).Returns) (hl : ∀ j rem a, f j = .ok (rem, a) → rem.length ≤ j.length) :
    (ofV R tag f i).Returns :=
  C04_defined_total R tag _ i fun _ _ =>
    returns_ofSubparser (fun j _ => hf j) (fun j rem a _ h => hl j rem a h)

/-- A closure that consumes nothing is answered with an error, not with a loop. -/
example : ofV (E := BerError) .ber Tag.sequence (fun j => .ok (j, ())) [0x30, 0x01, 0xaa] =
    .err (.error (.nomError .many0)) := rfl

/-- C04: the hypothesis on the remainder is needed: nom's `many0` only compares lengths for
equality, so a closure answering a longer slice loops for ever. -/
theorem C04_of_v_longer_remainder_counterexample (fuel : Nat) (i : Bytes) :
    many0 (E := BerError) (fun j => .ok (0 :: j, ())) fuel i = .diverge := by
  induction fuel generalizing i with
  | zero => rfl
  | succ fuel ih => simp [many0, ih]

/-- C04 in full: whatever the closure answers, the combinator returns if the closure does. -/
def C04Statement : Prop :=
  ∀ (R : Rules) (tag : Nat) (f : Bytes → IRes BerError Unit) (i : Bytes), (∀ j, (f j).Returns) → (ofV R tag f i).Returns

/-- C04 is false: `parse_ber_sequence_of_v` loops for ever on any SEQUENCE with such a closure. -/
theorem C04_full_counterexample : ¬ C04Statement := fun h => by
  have := h .ber Tag.sequence (fun j => .ok (0 :: j, ())) [0x30, 0x00] fun _ => by simp
  revert this
  rw [show ofV (E := BerError) .ber Tag.sequence (fun j => .ok (0 :: j, ())) [0x30, 0x00] = .diverge from rfl]
  simp

/-- C04: `parse_*_tagged_explicit_g`. -/
theorem C04_tagged_explicit_g_total (R : Rules) (tag : Nat) (f : Bytes → Header → IRes E O)
    (i : Bytes) (hf : ∀ c h, (f c h).Returns) : (taggedExplicitG R tag f i).Returns :=
  C04_container_total R _ i fun c h => by
    split
    · simp
    · exact returns_bind (by simpa using returns_assertTag h tag) fun _ _ =>
        returns_bind (by simpa using returns_assertConstructed h) fun _ _ => hf c h

example (D : Deps) (i : Bytes) := C04_tagged_explicit_g_total .der 3 (fun c _ => parseBer D c) i fun c _ => C01_parse_ber_total D c

/-- C04: `parse_*_tagged_implicit_g`. -/
theorem C04_tagged_implicit_g_total (R : Rules) (tag : Nat) (f : Bytes → Header → Nat → IRes E O)
    (i : Bytes) (hf : ∀ c h d, (f c h d).Returns) : (taggedImplicitG R tag f i).Returns :=
  C04_container_total R _ i fun c h =>
    returns_bind (by simpa using returns_assertTag h tag) fun _ _ => hf c h _

example (D : Deps) (i : Bytes) := C04_tagged_implicit_g_total .ber 3 (parseBerContent D 4) i
  fun c h d => (C03_content_parsers_total D c 4 h.length h.constructed d h).2.2.1

end

theorem returns_mapRes {E α β : Type} (g : α → β) (p : Bytes → IRes E α) (i : Bytes)
    (h : (p i).Returns) : (mapRes g p i).Returns :=
  returns_bind h fun _ _ => by simp

/-- C04: the `BerObject`-returning SEQUENCE/SET (OF) combinators. -/
theorem C04_object_combinators_total_partial (R : Rules) (f : Bytes → IRes BerError BerObject)
    (g : Bytes → IRes BerError (List BerObject)) (i : Bytes)
    (hf : ∀ j, (f j).Returns) (hl : ∀ j rem a, f j = .ok (rem, a) → rem.length ≤ j.length)
    (hg : ∀ j, (g j).Returns) :
    (sequenceOf R f i).Returns ∧ (setOf R f i).Returns ∧
    (sequenceDefined R g i).Returns ∧ (setDefined R g i).Returns :=
  ⟨returns_mapRes _ _ _ (C04_of_v_total_partial R _ f i hf hl),
   returns_mapRes _ _ _ (C04_of_v_total_partial R _ f i hf hl),
   returns_mapRes _ _ _ (C04_defined_total R _ _ i fun c _ => hg c),
   returns_mapRes _ _ _ (C04_defined_total R _ _ i fun c _ => hg c)⟩

example (D : Deps) (i : Bytes) := C04_object_combinators_total_partial .der (parseBer D)
  (fun j => parseBer D j >>? fun r => .ok (r.1, [r.2])) i (C01_parse_ber_total D)
  (fun _ _ _ h => (local_parseBerAnyR D maxRecursion).length_le h)
  (fun j => returns_bind (C01_parse_ber_total D j) fun _ _ => trivial)

/-- C04: tagged objects. -/
theorem C04_tagged_objects_total (R : Rules) (tag : Nat) (f : Bytes → IRes BerError BerObject)
    (g : Bytes → Header → Nat → IRes BerError Content) (i : Bytes)
    (hf : ∀ j, (f j).Returns) (hg : ∀ c h d, (g c h d).Returns) :
    (taggedExplicit R tag f i).Returns ∧ (taggedImplicit R tag g i).Returns ∧
    (parseImplicit tag g i).Returns :=
  ⟨C04_tagged_explicit_g_total R tag _ i fun c _ => returns_bind (hf c) fun _ _ => by simp,
   C04_tagged_implicit_g_total R tag _ i fun c h d =>
    returns_bind (hg c h d) fun _ _ => by simp,
   by
    unfold parseImplicit taggedImplicit
    exact C04_tagged_implicit_g_total .ber tag _ i fun c h d =>
      returns_bind (hg c h d) fun _ _ => by simp⟩

example (D : Deps) (i : Bytes) := C04_tagged_objects_total .ber 3 (parseBer D) (parseBerContent D 4) i (C01_parse_ber_total D)
  fun c h d => (C03_content_parsers_total D c 4 h.length h.constructed d h).2.2.1

/-- C04: `parse_ber_optional`, `parse_*_explicit_optional`. -/
theorem C04_optional_total (tag : Nat) (f : Bytes → IRes BerError BerObject) (i : Bytes)
    (hf : ∀ j, (f j).Returns) :
    (parseOptional f i).Returns ∧ (parseExplicitOptional tag f i).Returns := by
  have key : ∀ (g : Bytes → IRes BerError BerObject), (g i).Returns →
      (parseOptional g i).Returns := by
    intro g hg
    unfold parseOptional
    split
    · simp
    · simp
    · rename_i h; simp [h] at hg
    · rename_i h; simp [h] at hg
  exact ⟨key f (hf i), key _ (C04_tagged_explicit_g_total .ber tag _ i fun c _ =>
    returns_bind (hf c) fun _ _ => by simp)⟩

/-- The hypotheses of C04 are met by the library's own parsers. -/
example (D : Deps) (i : Bytes) : (ofV .ber Tag.sequence (parseBer D) i).Returns :=
  C04_of_v_total_partial .ber _ _ i (C01_parse_ber_total D)
    fun _ _ _ h => (local_parseBerAnyR D maxRecursion).length_le h

end Verif
