import Verif.Props.FailTyped
import Verif.Props.Integers
/-!
# Property C87: all answers of the native integer functions
-/
namespace Verif
open Outcome Spec

theorem assertTag_ne {h : Header} {t : Nat} (ht : h.tag ≠ t) : h.assertTag t = .err (.unexpectedTag (some t) h.tag) := by
  unfold Header.assertTag; rw [if_neg ht]

theorem assertPrimitive_constructed {h : Header} (hc : h.constructed = true) :
    h.assertPrimitive = .err .constructUnexpected := by
  unfold Header.assertPrimitive; rw [if_pos hc]

/-- C87: every input starts with an element that can be delimited, or is cut, or is rejected while it is
delimited. -/
theorem C87_ber_cover (i : Bytes) :
    (∃ e rest h c, i = e ++ rest ∧ Framed 50 e h c) ∨ (∃ m, Cut false 50 i (.need m)) ∨ ∃ e, FrameFails 50 i e := by
  cases h : anyFromBer i with
  | ok r =>
    obtain ⟨e, h1, h2⟩ := anyFromBer_framed.1 h
    exact .inl ⟨e, r.1, _, _, h1, h2⟩
  | err x =>
    rcases anyFromBer_err_cases h with ⟨m, _, h⟩ | ⟨e, _, h⟩
    · exact .inr (.inl ⟨m, h⟩)
    · exact .inr (.inr ⟨e, h⟩)
  | panic => have := returns_anyFromBer i; rw [h] at this; exact absurd this (by simp [Outcome.Returns])
  | diverge => have := returns_anyFromBer i; rw [h] at this; exact absurd this (by simp [Outcome.Returns])

/-- C87: input that cannot be delimited gets the answer of `parse_ber`. -/
theorem C87_ber_unframed (n : Nat) (i : Bytes) :
    (∀ m, Cut false 50 i (.need m) → parseBerUint n i = .err (.incomplete (.size m)) ∧
      parseBerInt n i = .err (.incomplete (.size m))) ∧
    ∀ e, FrameFails 50 i e → parseBerUint n i = .err (.error e) ∧ parseBerInt n i = .err (.error e) := by
  refine ⟨fun m h => ?_, fun e h => ?_⟩
  · unfold parseBerUint parseBerInt
    rw [anyFromBer_incomplete.2 h]
    exact ⟨rfl, rfl⟩
  · unfold parseBerUint parseBerInt
    rw [anyFromBer_error.2 h]
    exact ⟨rfl, rfl⟩

example := (C87_ber_unframed 4 [0x02, 0x03, 0x01]).1 2 (.contents 49 3 [0x02, 0x03] [0x01] _ (berHeader_read rfl) rfl (by decide))

/-- C87: the answers of `parse_ber_u32`/`parse_ber_u64` (`n` = 4 / 8) to a delimited element. -/
theorem C87_ber_unsigned (n : Nat) (hn : 1 ≤ n) (e rest c : Bytes) (h : Header) (hF : Framed 50 e h c) :
    parseBerUint n (e ++ rest) =
      if h.tag ≠ 2 then .err (.error (.unexpectedTag (some 2) h.tag))
      else if h.constructed = true then .err (.error .constructUnexpected)
      else if twosComplement c < 0 then .err (.error .integerNegative)
      else if (2 ^ (8 * n) : Nat) ≤ twosComplement c then .err (.error .integerTooLarge)
      else .ok (rest, (twosComplement c).toNat) := by
  unfold parseBerUint
  rw [(anyFromBer_framed (rem := rest) (a := ⟨h, c⟩)).2 ⟨e, rfl, hF⟩, ok_bind]
  dsimp only
  by_cases ht : h.tag = 2
  · rw [if_neg (by simpa using ht)]
    by_cases hc : h.constructed = true
    · rw [if_pos hc]
      unfold uintFromAny
      rw [assertTag_ok.2 (show h.tag = Tag.integer from ht), assertPrimitive_constructed hc]
      rfl
    · rw [if_neg hc, uintFromAny_eq n hn ⟨h, c⟩ ht (by simpa using hc)]
      dsimp only
      split
      · rfl
      · split <;> rfl
  · rw [if_pos ht]
    unfold uintFromAny
    rw [assertTag_ne (show h.tag ≠ Tag.integer from ht)]
    rfl

example := C87_ber_unsigned 4 (by decide) [0x02, 0x02, 0x00, 0xff] [9] _ _ (framed_read rfl)

/-- C87: the answers of `parse_ber_i32`/`parse_ber_i64` to a delimited element. -/
theorem C87_ber_signed (n : Nat) (hn : 1 ≤ n) (e rest c : Bytes) (h : Header) (hF : Framed 50 e h c) :
    parseBerInt n (e ++ rest) =
      if h.tag ≠ 2 then .err (.error (.unexpectedTag (some 2) h.tag))
      else if h.constructed = true then .err (.error .constructUnexpected)
      else if -(2 ^ (8 * n - 1) : Nat) ≤ twosComplement c ∧ twosComplement c < (2 ^ (8 * n - 1) : Nat) then
        .ok (rest, twosComplement c)
      else .err (.error .integerTooLarge) := by
  unfold parseBerInt
  rw [(anyFromBer_framed (rem := rest) (a := ⟨h, c⟩)).2 ⟨e, rfl, hF⟩, ok_bind]
  dsimp only
  by_cases ht : h.tag = 2
  · rw [if_neg (by simpa using ht)]
    by_cases hc : h.constructed = true
    · rw [if_pos hc]
      unfold intFromAny
      rw [assertTag_ok.2 (show h.tag = Tag.integer from ht), assertPrimitive_constructed hc]
      rfl
    · rw [if_neg hc, intFromAny_eq n hn ⟨h, c⟩ ht (by simpa using hc)]
      dsimp only
      split <;> rfl
  · rw [if_pos ht]
    unfold intFromAny
    rw [assertTag_ne (show h.tag ≠ Tag.integer from ht)]
    rfl

example := C87_ber_signed 8 (by decide) [0x02, 0x02, 0xff, 0x7f] [9] _ _ (framed_read rfl)

/-! ## DER -/

/-- C87: every input starts with an element of definite length, or its header is cut or rejected, or its
contents are cut. -/
theorem C87_der_cover (i : Bytes) :
    (∃ hb c rest h, i = hb ++ c ++ rest ∧ DerHeader hb h ∧ h.length = .definite c.length) ∨
      (∃ m, HeaderCut false i (.need m)) ∨ (∃ e, HeaderFails derIndefinite i e) ∨
      ∃ hb c h l, i = hb ++ c ∧ DerHeader hb h ∧ h.length = .definite l ∧ c.length < l := by
  cases hh : headerFromDer i with
  | ok r =>
    obtain ⟨rest, h⟩ := r
    obtain ⟨hb, rfl, H⟩ := headerFromDer_iff.1 hh
    cases hl : h.length with
    | indefinite => exact absurd hl H.definite
    | definite l =>
      by_cases hlt : rest.length < l
      · exact .inr (.inr (.inr ⟨hb, rest, h, l, rfl, H, hl, hlt⟩))
      · refine .inl ⟨hb, rest.take l, rest.drop l, h, by simp, H, ?_⟩
        rw [hl, List.length_take, Nat.min_eq_left (by omega)]
  | err x =>
    rcases headerFromDer_err hh with ⟨m, rfl⟩ | ⟨e, rfl⟩
    · exact .inr (.inl ⟨m, headerFromDer_incomplete.1 hh⟩)
    · exact .inr (.inr (.inl ⟨e, headerFromDer_error.1 hh⟩))
  | panic => have := returns_headerFromDer i; rw [hh] at this; exact absurd this (by simp [Outcome.Returns])
  | diverge => have := returns_headerFromDer i; rw [hh] at this; exact absurd this (by simp [Outcome.Returns])

/-- C87: answers when the element is cut or its header rejected. -/
theorem C87_der_unframed (n : Nat) :
    (∀ i m, HeaderCut false i (.need m) → parseDerUint n i = .err (.incomplete (.size m)) ∧
      parseDerInt n i = .err (.incomplete (.size m))) ∧
    (∀ i e, HeaderFails derIndefinite i e → parseDerUint n i = .err (.error e) ∧
      parseDerInt n i = .err (.error e)) ∧
    ∀ hb c h l, DerHeader hb h → h.length = .definite l → c.length < l →
      parseDerUint n (hb ++ c) = .err (.incomplete (.size (l - c.length))) ∧
      parseDerInt n (hb ++ c) = .err (.incomplete (.size (l - c.length))) := by
  have key : ∀ i x, anyFromDer i = .err x → parseDerUint n i = .err x ∧ parseDerInt n i = .err x := by
    intro i x h
    unfold parseDerUint parseDerInt
    rw [h]
    exact ⟨rfl, rfl⟩
  refine ⟨fun i m h => key _ _ ?_, fun i e h => key _ _ ?_, fun hb c h l H hl hlt => key _ _ ?_⟩
  · unfold anyFromDer; rw [headerFromDer_incomplete.2 h]; rfl
  · unfold anyFromDer; rw [headerFromDer_error.2 h]; rfl
  · unfold anyFromDer
    rw [derHeader_reads H, ok_bind]
    simp only [hl, Length.definite?, liftRes_ok, ok_bind]
    unfold takeStreaming
    rw [if_pos hlt]
    simp only [err_bind, Needed.new]
    rw [if_neg (by omega)]

example := (C87_der_unframed 4).2.2 [0x02, 0x03] [0x01] _ 3 (derHeader_read rfl) rfl (by decide)

/-- The constraint on INTEGER contents octets as a table. -/
theorem derIntConstraints_eq (c : Bytes) : derIntConstraints c =
    if c = [] then .err (.derConstraintFailed .integerEmpty)
    else if (bitsOf c).take 9 = List.replicate 9 false then .err (.derConstraintFailed .integerLeadingZeroes)
    else if (bitsOf c).take 9 = List.replicate 9 true then .err (.derConstraintFailed .integerLeadingFF)
    else .ok () := by
  match c with
  | [] => rfl
  | [a] =>
    have hz : ∀ v, (bitsOf [a]).take 9 ≠ List.replicate 9 v := by
      intro v h
      have := congrArg List.length h
      simp [bitsOf, bitsOfByte] at this
    simp only [derIntConstraints, reduceCtorEq, if_false, hz]
  | a :: b :: rest =>
    have h0 : (bitsOf (a :: b :: rest)).take 9 = List.replicate 9 false ↔ a = 0 ∧ b.toNat < 128 := by
      rw [nine_zero_bits]
      exact ⟨fun ⟨_, _, h, h'⟩ => by cases h; exact ⟨rfl, h'⟩, fun ⟨h, h'⟩ => ⟨b, rest, by rw [h], h'⟩⟩
    have h1 : (bitsOf (a :: b :: rest)).take 9 = List.replicate 9 true ↔ a = 0xff ∧ 128 ≤ b.toNat :=
      ⟨nine_one_bits a b rest, fun ⟨h, h'⟩ => by subst h; exact nine_one_bits_mk b rest h'⟩
    simp only [derIntConstraints, reduceCtorEq, if_false, h0, h1]

/-- C87: the answers of `parse_der_u32`/`parse_der_u64` to an element of definite length.  The rules on the
contents octets come before the tag: an OCTET STRING gives `UnexpectedTag` or, for instance,
`IntegerLeadingZeroes`, depending on its contents. -/
theorem C87_der_unsigned (n : Nat) (hn : 1 ≤ n) (hb rest c : Bytes) (h : Header) (H : DerHeader hb h)
    (hl : h.length = .definite c.length) :
    parseDerUint n (hb ++ c ++ rest) =
      if h.constructed = true then .err (.error .constructUnexpected)
      else if c = [] then .err (.error (.derConstraintFailed .integerEmpty))
      else if (bitsOf c).take 9 = List.replicate 9 false then
        .err (.error (.derConstraintFailed .integerLeadingZeroes))
      else if (bitsOf c).take 9 = List.replicate 9 true then .err (.error (.derConstraintFailed .integerLeadingFF))
      else if h.tag ≠ 2 then .err (.error (.unexpectedTag (some 2) h.tag))
      else if twosComplement c < 0 then .err (.error .integerNegative)
      else if (2 ^ (8 * n) : Nat) ≤ twosComplement c then .err (.error .integerTooLarge)
      else .ok (rest, (twosComplement c).toNat) := by
  unfold parseDerUint
  rw [anyFromDer_iff (a := ⟨h, c⟩) |>.2 ⟨hb, rfl, H.toBerHeader, hl⟩, ok_bind]
  dsimp only
  by_cases hc : h.constructed = true
  · rw [if_pos hc, assertPrimitive_constructed hc]; rfl
  · rw [if_neg hc, assertPrimitive_ok.2 (by simpa using hc), liftRes_ok, ok_bind, derIntConstraints_eq]
    split
    · rfl
    split
    · rfl
    split
    · rfl
    rw [liftRes_ok, ok_bind]
    by_cases ht : h.tag = 2
    · rw [if_neg (by simpa using ht), uintFromAny_eq n hn ⟨h, c⟩ ht (by simpa using hc)]
      dsimp only
      split
      · rfl
      · split <;> rfl
    · rw [if_pos ht]
      unfold uintFromAny
      rw [assertTag_ne (show h.tag ≠ Tag.integer from ht)]
      rfl

example := C87_der_unsigned 4 (by decide) [0x02, 0x02] [9] [0x00, 0xff] _ (derHeader_read rfl) rfl

/-- C87: the answers of `parse_der_i32`/`parse_der_i64` to an element of definite length. -/
theorem C87_der_signed (n : Nat) (hn : 1 ≤ n) (hb rest c : Bytes) (h : Header) (H : DerHeader hb h)
    (hl : h.length = .definite c.length) :
    parseDerInt n (hb ++ c ++ rest) =
      if h.constructed = true then .err (.error .constructUnexpected)
      else if c = [] then .err (.error (.derConstraintFailed .integerEmpty))
      else if (bitsOf c).take 9 = List.replicate 9 false then
        .err (.error (.derConstraintFailed .integerLeadingZeroes))
      else if (bitsOf c).take 9 = List.replicate 9 true then .err (.error (.derConstraintFailed .integerLeadingFF))
      else if h.tag ≠ 2 then .err (.error (.unexpectedTag (some 2) h.tag))
      else if -(2 ^ (8 * n - 1) : Nat) ≤ twosComplement c ∧ twosComplement c < (2 ^ (8 * n - 1) : Nat) then
        .ok (rest, twosComplement c)
      else .err (.error .integerTooLarge) := by
  unfold parseDerInt
  rw [anyFromDer_iff (a := ⟨h, c⟩) |>.2 ⟨hb, rfl, H.toBerHeader, hl⟩, ok_bind]
  dsimp only
  by_cases hc : h.constructed = true
  · rw [if_pos hc, assertPrimitive_constructed hc]; rfl
  · rw [if_neg hc, assertPrimitive_ok.2 (by simpa using hc), liftRes_ok, ok_bind, derIntConstraints_eq]
    split
    · rfl
    split
    · rfl
    split
    · rfl
    rw [liftRes_ok, ok_bind]
    by_cases ht : h.tag = 2
    · rw [if_neg (by simpa using ht), intFromAny_eq n hn ⟨h, c⟩ ht (by simpa using hc)]
      dsimp only
      split <;> rfl
    · rw [if_pos ht]
      unfold intFromAny
      rw [assertTag_ne (show h.tag ≠ Tag.integer from ht)]
      rfl

/-! Examples: the hypotheses are met. -/

/-- An OCTET STRING `00 01` given to `parse_der_u32`: the complaint is about leading zeroes. -/
example : parseDerUint 4 [0x04, 0x02, 0x00, 0x01] = .err (.error (.derConstraintFailed .integerLeadingZeroes)) := rfl
/-- The same to `parse_ber_u32`. -/
example : parseBerUint 4 [0x04, 0x02, 0x00, 0x01] = .err (.error (.unexpectedTag (some 2) 4)) := rfl

example : DerHeader [0x02, 0x01] ⟨.universal, false, 2, .definite 1, some [0x02]⟩ :=
  ⟨⟨⟨[0x02], [0x01], 2, rfl, .low 2 (by decide), .short 1 (by decide), rfl, by decide, rfl⟩,
    by intro n hn; cases hn; decide, by simp⟩, by simp⟩

end Verif
