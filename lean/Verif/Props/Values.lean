import Verif.Lemmas.Nodes
import Verif.Props.Framing
/-!
# C16-C23: values of BOOLEAN, INTEGER, BIT STRING and ENUMERATED
-/
namespace Verif
open Outcome Spec

theorem pow256_8 : (256 : Nat) ^ 8 = 2 ^ 64 := by decide
theorem pow256_4 : (256 : Nat) ^ 4 = 2 ^ 32 := by decide

/-! ## C16 -/

theorem objectFromAny_bool {D : Deps} {d : Nat} {h : Header} {c : Bytes} (hcls : h.cls = .universal)
    (ht : h.tag = 1) :
    objectFromAny D (d + 1) ⟨h, c⟩ = (Any.bool ⟨h, c⟩).map fun b => .mk h (.boolean b) := by
  simp only [objectFromAny, hcls, ne_eq, not_true_eq_false, if_false, universalContent, ht, uKind]
  cases Any.bool ⟨h, c⟩ <;> rfl

/-- C16, full statement for `parse_ber_bool`: accepted are exactly the universal primitive elements
of number 1 with one content octet. -/
def C16Statement (D : Deps) : Prop :=
  ∀ (i rem : Bytes) (o : BerObject), parseBerWithTag D Tag.boolean i = .ok (rem, o) ↔
    ∃ hb h b, BerHeader hb h ∧ h.cls = .universal ∧ h.constructed = false ∧ h.tag = 1 ∧
      h.length = .definite 1 ∧ i = hb ++ [b] ++ rem ∧ o = .mk h (.boolean (decide (b ≠ 0)))

/-- C16 is false: the class and the constructed bit are not looked at. -/
theorem C16_class_counterexample (D : Deps) : ¬ C16Statement D := by
  intro h
  obtain ⟨hb, hd, b, _, h1, _, _, _, _, h2⟩ :=
    (h [0x81, 0x01, 0xff] [] (.mk ⟨.contextSpecific, false, 1, .definite 1, some [0x81]⟩
      (.boolean true))).1 rfl
  simp only [BerObject.mk.injEq] at h2
  rw [← h2.1] at h1
  simp at h1

/-- C16 for `parse_ber_bool`, without the restriction on class and form: exactly the elements
with tag number 1 and one content octet (in definite form) are accepted, and the value is "the
octet is not zero".  Missing: class universal and primitive form are not enforced. -/
theorem C16_parse_ber_bool_partial (D : Deps) (i rem : Bytes) (o : BerObject) :
    parseBerWithTag D Tag.boolean i = .ok (rem, o) ↔
      ∃ hb h b, BerHeader hb h ∧ h.tag = 1 ∧ h.length = .definite 1 ∧ i = hb ++ [b] ++ rem ∧
        o = .mk h (.boolean (decide (b ≠ 0))) := by
  have hb1 : ∀ b : UInt8, (b.toNat != 0) = decide (b ≠ 0) := by
    intro b
    by_cases hb : b = 0
    · subst hb; rfl
    · have : b.toNat ≠ 0 := fun h => hb (UInt8.toNat_inj.1 h)
      simp [this, hb]
  constructor
  · intro h
    obtain ⟨hb, i1, c, o', H, rfl, ht, h1, h2, h3, _⟩ := parseBerWithTag_conv h
    rw [show (50 : Nat) = 49 + 1 from rfl, objectFromAny_bool rfl rfl] at h2
    obtain ⟨v, h4, rfl⟩ := map_eq_ok.1 h2
    unfold Any.bool at h4
    split at h4
    · rename_i hl
      obtain ⟨rfl, hlen⟩ := getObjectContent_def_len hl h1
      match c, hlen, h4 with
      | [b], _, h4 =>
        simp only [ok.injEq] at h4
        refine ⟨hb, o.header, b, H, ht, hl, by simp, ?_⟩
        rw [← hb1 b, h4, ← BerObject.eta o, h3]
        rfl
    · simp at h4
  · rintro ⟨hb, h, b, H, ht, hl, rfl, rfl⟩
    rw [parseBerWithTag_definite D _ H (c := [b]) hl]
    rw [if_neg (fun hn : h.tag ≠ Tag.boolean => hn ht), if_neg (by simp [maxObjectSize]),
      show (50 : Nat) = 49 + 1 from rfl,
      objectFromAny_bool (h := Header.new .universal h.constructed h.tag h.length) rfl ht]
    simp only [Any.bool, Header.new, hl, if_true, map_ok, liftRes, mapErr_ok, ok_bind,
      BerObject.content_mk, hb1]

/-- C16 for universal elements read by `parse_ber`: accepted iff there is one content octet. -/
theorem C16_parse_ber_bool_element (D : Deps) (hb c rest : Bytes) (h : Header) (H : BerHeader hb h)
    (hcls : h.cls = .universal) (ht : h.tag = 1) (hl : h.length = .definite c.length) :
    parseBer D (hb ++ c ++ rest) =
      match c with
      | [b] => .ok (rest, .mk h (.boolean (decide (b.toNat ≠ 0))))
      | _ => .err (.error .invalidLength) := by
  rw [parseBer_definite D H hl, show (50 : Nat) = 49 + 1 from rfl, objectFromAny_bool hcls ht]
  unfold Any.bool
  match c, hl with
  | [], hl => simp [hl, liftRes]
  | [b], hl =>
    simp only [hl, List.length_singleton, if_true, map_ok, liftRes, mapErr_ok, ok_bind]
    congr 5
    by_cases h0 : b.toNat = 0 <;> simp [h0]
  | _ :: _ :: _, hl => simp [hl, liftRes]

example := C16_parse_ber_bool_element Tests.D0 [0x01, 0x81, 0x01] [0x7f] [9] (Tests.h .universal false 1 1 [1]) (berHeader_read rfl) rfl rfl rfl

/-- C16 for `parse_der_bool`, in the same form: moreover the octet is `00` or `ff`. -/
theorem C16_parse_der_bool_partial (D : Deps) (i rem : Bytes) (o : BerObject) :
    parseDerWithTag D Tag.boolean i = .ok (rem, o) ↔
      ∃ hb h b, DerHeader hb h ∧ h.tag = 1 ∧ h.length = .definite 1 ∧ i = hb ++ [b] ++ rem ∧
        (b = 0 ∨ b = 0xff) ∧ o = .mk h (.boolean (decide (b = 0xff))) := by
  have key : ∀ (b : UInt8) (x : Bytes) (cs : Bool),
      derReadElementContentAs D ([b] ++ x) 1 (.definite 1) cs maxRecursion =
        if b ≠ 0 ∧ b ≠ 0xff then .err (.error (.derConstraintFailed .invalidBoolean))
        else .ok (x, .boolean (decide (b = 0xff))) := by
    intro b x cs
    rw [derReadElementContentAs_definite _ _ 1 _ _ [b] x rfl]
    rw [if_neg (by decide)]
    simp only [derCheck, uKind, ne_eq, not_true_eq_false, if_false]
    split
    · simp [liftRes]
    · rename_i hb
      simp only [liftRes, mapErr_ok, ok_bind]
      rw [if_neg (by decide), show maxRecursion = 49 + 1 from rfl, objectFromAny_bool rfl rfl]
      have : b = 0 ∨ b = 0xff := by
        by_cases h0 : b = 0
        · exact .inl h0
        · exact .inr (Decidable.byContradiction fun h1 => hb ⟨h0, h1⟩)
      rcases this with rfl | rfl <;> rfl
  constructor
  · intro h
    obtain ⟨i1, c, h1, ht, hc, h2⟩ := parseDerWithTag_ok h
    obtain ⟨hb, rfl, H⟩ := headerFromDer_iff.1 h1
    obtain ⟨l, pre, hl, rfl, hlen, _⟩ := derReadElementContentAs_ok h2
    have hl1 : l = 1 := by
      refine Decidable.byContradiction fun hne => ?_
      rw [hl, derReadElementContentAs_definite _ _ _ _ _ _ _ hlen, if_neg (by decide)] at h2
      simp [derCheck, Tag.boolean, uKind, hne, liftRes] at h2
    subst hl1
    match pre, hlen with
    | [b], _ =>
      rw [hl, show Tag.boolean = 1 from rfl, key] at h2
      split at h2
      · simp at h2
      · rename_i hb'
        simp only [ok.injEq, Prod.mk.injEq, true_and] at h2
        refine ⟨hb, o.header, b, H, ht, hl, by simp, ?_, ?_⟩
        · by_cases h0 : b = 0
          · exact .inl h0
          · exact .inr (Decidable.byContradiction fun h1 => hb' ⟨h0, h1⟩)
        · rw [h2, ← hc]; simp
  · rintro ⟨hb, h, b, H, ht, hl, rfl, hb', rfl⟩
    rw [parseDerWithTag_definite D _ H, if_neg (fun hn : h.tag ≠ Tag.boolean => hn ht), hl, ht, key, if_neg]
    · simp
    · rcases hb' with rfl | rfl <;> simp

example : parseBerWithTag Tests.D0 Tag.boolean [0x01, 0x01, 0x7f, 0xaa] =
    .ok ([0xaa], .mk ⟨.universal, false, 1, .definite 1, some [1]⟩ (.boolean true)) := rfl
example : parseDerWithTag Tests.D0 Tag.boolean [0x01, 0x01, 0x7f] =
    .err (.error (.derConstraintFailed .invalidBoolean)) := rfl
example : (parseDerWithTag Tests.D0 Tag.boolean [0x01, 0x01, 0xff]).isOk = true := rfl

/-! ## C17 -/

/-- `as_u64`/`as_u32` against the two's complement value, for `bits` = 64 / 32. -/
def unsignedResult (bits : Nat) (v : Int) : Res Nat :=
  if v < 0 then .err .integerNegative
  else if (2 ^ bits : Nat) ≤ v then .err .integerTooLarge
  else .ok v.toNat

theorem decodeArrayUint_result (n bits : Nat) (hn : 1 ≤ n) (hb : 256 ^ n = 2 ^ bits) (bs : Bytes) :
    (decodeArrayUint n bs).map beNat = unsignedResult bits (twosComplement bs) := by
  rw [decodeArrayUint_eq n hn, unsignedResult]
  split
  · rfl
  · rename_i h
    rw [twosComplement_nonneg h, hb]
    simp only [Int.toNat_natCast, Int.ofNat_le]

/-- C17, `as_u64`: exact for every INTEGER content. -/
theorem C17_as_u64_exact (o : BerObject) (bs : Bytes) (h : o.content = .integer bs) :
    o.asU64 = unsignedResult 64 (twosComplement bs) := by
  unfold BerObject.asU64; rw [h]; exact decodeArrayUint_result 8 64 (by decide) pow256_8 bs

/-- C17, `as_u32`. -/
theorem C17_as_u32_exact (o : BerObject) (bs : Bytes) (h : o.content = .integer bs) :
    o.asU32 = unsignedResult 32 (twosComplement bs) := by
  unfold BerObject.asU32; rw [h]; exact decodeArrayUint_result 4 32 (by decide) pow256_4 bs

/-- C17 as an equivalence: `Ok(v)` iff the value is `v` and fits. -/
theorem C17_as_u64_ok_iff (o : BerObject) (bs : Bytes) (h : o.content = .integer bs) (v : Nat) :
    (o.asU64 = .ok v ↔ twosComplement bs = v ∧ v < 2 ^ 64) ∧
    (o.asU32 = .ok v ↔ twosComplement bs = v ∧ v < 2 ^ 32) := by
  rw [C17_as_u64_exact o bs h, C17_as_u32_exact o bs h]
  have key : ∀ bits, unsignedResult bits (twosComplement bs) = .ok v ↔
      twosComplement bs = v ∧ v < 2 ^ bits := by
    intro bits
    unfold unsignedResult
    generalize twosComplement bs = t
    generalize 2 ^ bits = m
    split
    · simp; omega
    · split
      · simp; omega
      · simp; omega
  exact ⟨key 64, key 32⟩

example := C17_as_u64_ok_iff (.fromIntSlice [0x00, 0xff, 0xff, 0xff, 0xff]) _ rfl 4294967295

/-- C17: the arrays given to `from_be_bytes` have the size of the native type. -/
theorem C17_array_size (n : Nat) (bs a : Bytes) :
    (decodeArrayUint n bs = .ok a → a.length = n) ∧ (decodeArrayInt n bs = .ok a → a.length = n) := by
  refine ⟨fun h => ?_, fun h => ?_⟩
  · unfold decodeArrayUint at h
    split at h
    · simp at h
    · simp only at h
      split at h
      · simp at h
      · split at h
        · simp at h
        · simp only [ok.injEq] at h
          subst h
          simp
          omega
  · unfold decodeArrayInt at h
    simp only at h
    split at h
    · simp at h
    · simp only [ok.injEq] at h
      subst h
      simp
      omega
example : decodeArrayUint 4 [0x00, 0x80] = .ok [0, 0, 0, 0x80] := rfl

/-- C17: leading zero octets do not change the answer for non-negative numbers. -/
theorem C17_leading_zeroes (h : Header) (k : Nat) (bs : Bytes) (hbs : 0 ≤ twosComplement bs) :
    (BerObject.mk h (.integer (List.replicate k 0 ++ bs))).asU64 =
      (BerObject.mk h (.integer bs)).asU64 ∧
    (BerObject.mk h (.integer (List.replicate k 0 ++ bs))).asU32 =
      (BerObject.mk h (.integer bs)).asU32 := by
  have hv : twosComplement (List.replicate k 0 ++ bs) = twosComplement bs := by
    have h1 : base256 (List.replicate k 0 ++ bs) = base256 bs := by
      rw [base256_append, base256_replicate_zero]; simp
    have h2 : isHighestBitSet (List.replicate k 0 ++ bs) = false := by
      cases k with
      | zero =>
        cases hh : isHighestBitSet (List.replicate 0 0 ++ bs) with
        | false => rfl
        | true => have := (isHighestBitSet_iff bs).1 (by simpa using hh); omega
      | succ k => rfl
    rw [twosComplement_eq, h2, h1, twosComplement_nonneg (by omega)]
    simp
  rw [C17_as_u64_exact _ _ rfl, C17_as_u64_exact _ _ rfl, C17_as_u32_exact _ _ rfl,
    C17_as_u32_exact _ _ rfl, hv]
  exact ⟨rfl, rfl⟩

example : twosComplement [0x00, 0xff, 0xff, 0xff, 0xff] = 4294967295 := by decide +kernel
example : (BerObject.fromIntSlice [0x00, 0xff, 0xff, 0xff, 0xff]).asU32 = .ok 4294967295 := by
  decide +kernel
example : (BerObject.fromIntSlice [0x01, 0, 0, 0, 0]).asU32 = .err .integerTooLarge := rfl
example : (BerObject.fromIntSlice [0xff]).asU32 = .err .integerNegative := rfl

/-! ## C18 -/

/-- What C18 asks of `as_i64`/`as_i32`. -/
def signedResult (bits : Nat) (v : Int) : Res Int :=
  if -(2 ^ (bits - 1) : Nat) ≤ v ∧ v < (2 ^ (bits - 1) : Nat) then .ok v else .err .integerTooLarge

/-- C18, full statement. -/
def C18Statement : Prop := ∀ (o : BerObject) (bs : Bytes), o.content = .integer bs →
  o.asI64 = signedResult 64 (twosComplement bs) ∧ o.asI32 = signedResult 32 (twosComplement bs)

/-- C18 is false: the positive number 2^64-1 is read as -1. -/
theorem C18_positive_read_as_negative_counterexample :
    twosComplement [0x00, 0xff, 0xff, 0xff, 0xff, 0xff, 0xff, 0xff, 0xff] = 18446744073709551615 ∧
    (BerObject.fromIntSlice [0x00, 0xff, 0xff, 0xff, 0xff, 0xff, 0xff, 0xff, 0xff]).asI64 =
      .ok (-1) ∧
    twosComplement [0x00, 0xff, 0xff, 0xff, 0xff] = 4294967295 ∧
    (BerObject.fromIntSlice [0x00, 0xff, 0xff, 0xff, 0xff]).asI32 = .ok (-1) ∧
    ¬ C18Statement := by
  refine ⟨by decide +kernel, by decide +kernel, by decide +kernel, by decide +kernel, ?_⟩
  intro h
  have := (h (.fromIntSlice [0x00, 0xff, 0xff, 0xff, 0xff, 0xff, 0xff, 0xff, 0xff]) _ rfl).1
  revert this
  decide +kernel

/-- C18 is false in the other direction too: -1 written with nine octets is refused. -/
theorem C18_padded_negative_counterexample :
    twosComplement (List.replicate 9 0xff) = -1 ∧
    (BerObject.fromIntSlice (List.replicate 9 0xff)).asI64 = .err .integerTooLarge := by
  constructor <;> decide +kernel

theorem asSigned_eq (bits u : Nat) (_h : u < 2 ^ bits) :
    asSigned bits u = if u < 2 ^ (bits - 1) then (u : Int) else (u : Int) - (2 ^ bits : Nat) := rfl

theorem asSignedInt_eq (n : Nat) (hn : 1 ≤ n) (bs : Bytes) :
    (Content.integer bs).asSignedInt n =
      if twosComplement bs < 0 then
        if n < bs.length then .err .integerTooLarge else .ok (twosComplement bs)
      else if (2 ^ (8 * n) : Nat) ≤ twosComplement bs then .err .integerTooLarge
      else if twosComplement bs < (2 ^ (8 * n - 1) : Nat) then .ok (twosComplement bs)
      else .ok (twosComplement bs - (2 ^ (8 * n) : Nat)) := by
  unfold Content.asSignedInt
  simp only
  by_cases hh : isHighestBitSet bs = true
  · rw [if_pos hh, decodeArrayInt_neg n bs hh, if_pos ((isHighestBitSet_iff bs).1 hh)]
  · have h0 : ¬ twosComplement bs < 0 := fun h => hh ((isHighestBitSet_iff bs).2 h)
    rw [if_neg hh, if_neg h0]
    have e : (decodeArrayUint n bs).map (fun a => asSigned (8 * n) (beNat a)) =
        ((decodeArrayUint n bs).map beNat).map (asSigned (8 * n)) := by
      cases decodeArrayUint n bs <;> rfl
    rw [e, decodeArrayUint_eq n hn, if_neg h0, twosComplement_nonneg h0,
      show 256 ^ n = 2 ^ (8 * n) by rw [Nat.pow_mul]]
    simp only [Int.ofNat_le, Int.ofNat_lt]
    split
    · rfl
    · simp only [map_ok, asSigned]
      split <;> rfl

/-- C18, complete description of `as_i64`.  Missing from the full statement: non-negative values
in `2^63 .. 2^64-1` are wrapped instead of refused, and negative values with more than eight
octets are refused even if they fit. -/
theorem C18_as_i64_partial (o : BerObject) (bs : Bytes) (h : o.content = .integer bs) :
    o.asI64 =
      if twosComplement bs < 0 then
        if 8 < bs.length then .err .integerTooLarge else .ok (twosComplement bs)
      else if (2 ^ 64 : Nat) ≤ twosComplement bs then .err .integerTooLarge
      else if twosComplement bs < (2 ^ 63 : Nat) then .ok (twosComplement bs)
      else .ok (twosComplement bs - (2 ^ 64 : Nat)) := by
  unfold BerObject.asI64; rw [h]; exact asSignedInt_eq 8 (by decide) bs

example := C18_as_i64_partial (.fromIntSlice [0x80, 0, 0, 0, 0, 0, 0, 0]) _ rfl

/-- C18, complete description of `as_i32`; same defects as `as_i64`. -/
theorem C18_as_i32_partial (o : BerObject) (bs : Bytes) (h : o.content = .integer bs) :
    o.asI32 =
      if twosComplement bs < 0 then
        if 4 < bs.length then .err .integerTooLarge else .ok (twosComplement bs)
      else if (2 ^ 32 : Nat) ≤ twosComplement bs then .err .integerTooLarge
      else if twosComplement bs < (2 ^ 31 : Nat) then .ok (twosComplement bs)
      else .ok (twosComplement bs - (2 ^ 32 : Nat)) := by
  unfold BerObject.asI32; rw [h]; exact asSignedInt_eq 4 (by decide) bs

example := C18_as_i32_partial (.fromIntSlice [0xff, 0x7f]) _ rfl

theorem twosComplement_neg_ge (bs : Bytes) : -(2 ^ (8 * bs.length) : Nat) ≤ twosComplement bs * 2 := by
  rw [twosComplement_eq]
  split
  · rename_i h
    cases bs with
    | nil => simp [isHighestBitSet] at h
    | cons b bs =>
      have hb : 128 ≤ b.toNat := by simpa [isHighestBitSet] using h
      have : 128 * 256 ^ bs.length ≤ base256 (b :: bs) := by
        unfold base256
        have := Nat.mul_le_mul_right (256 ^ bs.length) hb
        omega
      have e : (2 : Nat) ^ (8 * (b :: bs).length) = 256 * 256 ^ bs.length := by
        rw [Nat.pow_mul, show (2 : Nat) ^ 8 = 256 from rfl, List.length_cons, Nat.pow_succ,
          Nat.mul_comm]
      rw [e]
      generalize 256 ^ bs.length = m at *
      generalize base256 (b :: bs) = v at *
      clear e
      simp only [Int.natCast_mul]
      omega
  · generalize 2 ^ (8 * bs.length) = m
    omega

/-- C18 holds whenever the content has at most eight (four) octets. -/
theorem C18_short_content_partial (o : BerObject) (bs : Bytes) (h : o.content = .integer bs) :
    (bs.length ≤ 8 → o.asI64 = signedResult 64 (twosComplement bs)) ∧
    (bs.length ≤ 4 → o.asI32 = signedResult 32 (twosComplement bs)) := by
  have key : ∀ n, 1 ≤ n → bs.length ≤ n → (Content.integer bs).asSignedInt n =
      signedResult (8 * n) (twosComplement bs) := by
    intro n hn hlen
    rw [asSignedInt_eq n hn, signedResult]
    have h1 := twosComplement_neg_ge bs
    have h2 : (2 : Nat) ^ (8 * bs.length) ≤ 2 ^ (8 * n) := Nat.pow_le_pow_right (by decide) (by omega)
    have h3 : (2 : Nat) ^ (8 * n) = 2 * 2 ^ (8 * n - 1) := by
      rw [← Nat.pow_succ']; congr 1; omega
    have h4 : twosComplement bs * 2 < (2 ^ (8 * bs.length) : Nat) ∨ bs.length = 0 := by
      by_cases h0 : twosComplement bs < 0
      · left; generalize 2 ^ (8 * bs.length) = m; omega
      · have hh : ¬ isHighestBitSet bs = true := fun h => h0 ((isHighestBitSet_iff bs).1 h)
        rw [twosComplement_nonneg h0]
        cases bs with
        | nil => right; rfl
        | cons b bs =>
          left
          have hb : b.toNat < 128 := by simpa [isHighestBitSet] using hh
          have hlt := base256_lt bs
          have e : (2 : Nat) ^ (8 * (b :: bs).length) = 256 * 256 ^ bs.length := by
            rw [Nat.pow_mul, show (2 : Nat) ^ 8 = 256 from rfl, List.length_cons, Nat.pow_succ,
              Nat.mul_comm]
          rw [e]
          unfold base256
          have := Nat.mul_le_mul_right (256 ^ bs.length) (show b.toNat ≤ 127 by omega)
          generalize 256 ^ bs.length = m at *
          generalize base256 bs = v at *
          generalize b.toNat * m = w at *
          omega
    have h5 : bs.length = 0 → twosComplement bs = 0 := by
      intro h; rw [List.length_eq_zero_iff.1 h]; rfl
    have h6 : 0 < 2 ^ (8 * n - 1) := Nat.pow_pos (by decide)
    rw [h3] at h2 ⊢
    generalize 2 ^ (8 * n - 1) = m at *
    generalize 2 ^ (8 * bs.length) = k at *
    generalize twosComplement bs = t at *
    push_cast
    by_cases c1 : t < 0
    · rw [if_pos c1, if_neg (by omega), if_pos (by omega)]
    · rw [if_neg c1, if_neg (by omega), if_pos (by omega), if_pos (by omega)]
  refine ⟨fun hlen => ?_, fun hlen => ?_⟩
  · unfold BerObject.asI64; rw [h]; exact key 8 (by decide) hlen
  · unfold BerObject.asI32; rw [h]; exact key 4 (by decide) hlen

example : (BerObject.fromIntSlice [0xff, 0x7f]).asI32 = .ok (-129) := by decide +kernel
example : twosComplement [0x80, 0, 0, 0, 0, 0, 0, 0] = -9223372036854775808 ∧
    (BerObject.fromIntSlice [0x80, 0, 0, 0, 0, 0, 0, 0]).asI64 = .ok (-9223372036854775808) := by
  decide +kernel

/-! ## C19 -/

theorem objectFromAny_integer (D : Deps) (d : Nat) (h : Header) (c : Bytes)
    (hcls : h.cls = .universal) (ht : h.tag = 2) :
    objectFromAny D (d + 1) ⟨h, c⟩ = .ok (.mk h (.integer c)) := by
  simp [objectFromAny, hcls, universalContent, ht, uKind]

/-- `parse_ber_integer` then `as_u64` / `as_u32`. -/
def twoStepUint (D : Deps) (conv : BerObject → Res Nat) (i : Bytes) : IRes BerError Nat :=
  parseBerWithTag D Tag.integer i >>? fun r => liftRes (conv r.2) >>? fun v => .ok (r.1, v)

/-- C19, full statement, on complete primitive universal INTEGER elements. -/
def C19Statement (D : Deps) : Prop :=
  ∀ (hb c rest : Bytes) (h : Header), BerHeader hb h → h.cls = .universal → h.tag = 2 →
    h.constructed = false → h.length = .definite c.length →
    parseBerUint 8 (hb ++ c ++ rest) = twoStepUint D BerObject.asU64 (hb ++ c ++ rest) ∧
    parseBerUint 4 (hb ++ c ++ rest) = twoStepUint D BerObject.asU32 (hb ++ c ++ rest)

theorem parseBerUint_element (n : Nat) (hb c rest : Bytes) (h : Header) (H : BerHeader hb h)
    (ht : h.tag = 2) (hc : h.constructed = false)
    (hl : h.length = .definite c.length) :
    parseBerUint n (hb ++ c ++ rest) =
      (liftRes ((decodeArrayUint n c).map beNat) >>? fun v => .ok (rest, v)) := by
  unfold parseBerUint
  rw [anyFromBer_definite H hl]
  simp [uintFromAny, Header.assertTag, ht, Tag.integer, Header.assertPrimitive, hc, asnDecodeArrayUint_eq]

/-- C19 under the object size limit of `parse_ber_integer` (2^32-1 octets).  Missing: larger
objects, which only the one-step functions accept (next theorem). -/
theorem C19_one_step_two_steps_partial (D : Deps) (hb c rest : Bytes) (h : Header)
    (H : BerHeader hb h) (_hcls : h.cls = .universal) (ht : h.tag = 2)
    (hc : h.constructed = false) (hl : h.length = .definite c.length)
    (hmax : c.length ≤ 4294967295) :
    parseBerUint 8 (hb ++ c ++ rest) = twoStepUint D BerObject.asU64 (hb ++ c ++ rest) ∧
    parseBerUint 4 (hb ++ c ++ rest) = twoStepUint D BerObject.asU32 (hb ++ c ++ rest) := by
  have hw : parseBerWithTag D Tag.integer (hb ++ c ++ rest) = .ok (rest, .mk h (.integer c)) := by
    rw [parseBerWithTag_definite D _ H hl, if_neg (fun hn : h.tag ≠ Tag.integer => hn ht),
      if_neg (by unfold maxObjectSize; omega), show (50 : Nat) = 49 + 1 from rfl,
      objectFromAny_integer D 49 (Header.new .universal h.constructed h.tag h.length) c rfl ht]
    rfl
  unfold twoStepUint
  rw [hw, parseBerUint_element 8 hb c rest h H ht hc hl,
    parseBerUint_element 4 hb c rest h H ht hc hl]
  exact ⟨rfl, rfl⟩

example := C19_one_step_two_steps_partial Tests.D0 [0x02, 0x81, 0x02] [0x01, 0x00] [9] (Tests.h .universal false 2 2 [2])
  (berHeader_read rfl) rfl rfl rfl rfl (by decide)

/-- C19, one direction without limits and without any hypothesis on the input: what the two-step
version returns on a primitive element, the one-step version returns too. -/
theorem C19_two_steps_imply_one_step (D : Deps) (i rem : Bytes) (o : BerObject) (v : Nat)
    (h : parseBerWithTag D Tag.integer i = .ok (rem, o)) (hp : o.header.constructed = false) :
    (o.asU64 = .ok v → parseBerUint 8 i = .ok (rem, v)) ∧
    (o.asU32 = .ok v → parseBerUint 4 i = .ok (rem, v)) := by
  obtain ⟨hb, i1, c, o', H, rfl, ht, h1, h2, h3, _⟩ := parseBerWithTag_conv h
  rw [show (50 : Nat) = 49 + 1 from rfl, objectFromAny_integer D 49 _ c rfl rfl] at h2
  simp only [ok.injEq] at h2
  have hcont : o.content = .integer c := by rw [h3, ← h2]; rfl
  have hdef : ∃ L, o.header.length = .definite L := by
    cases hlen : o.header.length with
    | definite L => exact ⟨L, rfl⟩
    | indefinite => have := H.indef_constructed hlen; rw [hp] at this; simp at this
  obtain ⟨L, hL⟩ := hdef
  obtain ⟨rfl, hcl⟩ := getObjectContent_def_len (hdr := Header.new .universal _ _ _) (l := L) hL h1
  rw [← List.append_assoc]
  rw [parseBerUint_element 8 hb c rem _ H ht hp (by rw [hL, hcl]),
    parseBerUint_element 4 hb c rem _ H ht hp (by rw [hL, hcl])]
  unfold BerObject.asU64 BerObject.asU32
  rw [hcont]
  simp only [Content.asU64, Content.asU32]
  constructor <;> intro hv <;> rw [hv] <;> rfl

example := C19_two_steps_imply_one_step Tests.D0 [0x02, 0x02, 0x01, 0x00, 9] [9] _ 256 rfl rfl

/-- C19 is false for objects above the size limit: 2^32 zero octets are the number 0 for
`parse_ber_u64` and an error for `parse_ber_integer`. -/
theorem C19_large_object_counterexample (D : Deps) : ¬ C19Statement D := by
  intro hC
  have hlen : (List.replicate 4294967296 (0 : UInt8)).length = 4294967296 := List.length_replicate
  have H : BerHeader [0x02, 0x85, 0x01, 0, 0, 0, 0]
      ⟨.universal, false, 2, .definite 4294967296, some [2]⟩ := by
    refine ⟨⟨[2], [0x85, 0x01, 0, 0, 0, 0], 2, rfl, IdentOctets.low 2 (by decide),
      LenOctets.long 0x85 [0x01, 0, 0, 0, 0] (by decide) (by decide) rfl, by decide, by simp, rfl⟩,
      ?_, by simp⟩
    intro n hn
    simp only [Length.definite.injEq] at hn
    rw [← hn]
    decide
  generalize hz : List.replicate 4294967296 (0 : UInt8) = z at hlen
  have hv : twosComplement z = 0 := by
    rw [twosComplement_nonneg]
    · rw [← hz, base256_replicate_zero]; rfl
    · intro h
      have := (isHighestBitSet_iff z).2 h
      rw [← hz, show (4294967296 : Nat) = 4294967295 + 1 from rfl, List.replicate_succ] at this
      simp [isHighestBitSet] at this
  have hl : (⟨.universal, false, 2, .definite 4294967296, some [2]⟩ : Header).length =
      .definite z.length := by rw [hlen]
  have h1 := (hC _ z [] _ H rfl rfl rfl hl).1
  rw [parseBerUint_element 8 _ z [] _ H rfl rfl hl,
    decodeArrayUint_result 8 64 (by decide) pow256_8, hv] at h1
  unfold twoStepUint at h1
  rw [parseBerWithTag_definite D _ H hl, if_neg (by simp [Tag.integer]),
    if_pos (by rw [hlen]; decide)] at h1
  simp [unsignedResult, liftRes] at h1

example : parseBerUint 8 [0x02, 0x02, 0x01, 0x00, 0xaa] = .ok ([0xaa], 256) ∧
    twoStepUint Tests.D0 BerObject.asU64 [0x02, 0x02, 0x01, 0x00, 0xaa] = .ok ([0xaa], 256) := by
  decide +kernel

/-! ## C20 -/

/-- C20, `as_bigint`: the two's complement value, for any length. -/
theorem C20_as_bigint_exact (o : BerObject) (bs : Bytes) (h : o.content = .integer bs) :
    o.asBigint = .ok (twosComplement bs) := by
  unfold BerObject.asBigint
  rw [h, twosComplement_eq]
  simp only [bigIntFromSignedBytesBe, beNat_eq]

example := C20_as_bigint_exact (.fromIntSlice (0xff :: List.replicate 20 0)) _ rfl

/-- C20, `as_biguint`: the same number, or `IntegerNegative`. -/
theorem C20_as_biguint_exact (o : BerObject) (bs : Bytes) (h : o.content = .integer bs) :
    o.asBiguint = if twosComplement bs < 0 then .err .integerNegative
      else .ok (twosComplement bs).toNat := by
  unfold BerObject.asBiguint
  rw [h]
  simp only
  by_cases hh : isHighestBitSet bs = true
  · rw [if_pos hh, if_pos ((isHighestBitSet_iff bs).1 hh)]
  · have h0 : ¬ twosComplement bs < 0 := fun h => hh ((isHighestBitSet_iff bs).2 h)
    rw [if_neg hh, if_neg h0, twosComplement_nonneg h0, beNat_eq]
    simp

example := C20_as_biguint_exact (.fromIntSlice (0x7f :: List.replicate 20 0)) _ rfl

/-- C20: on any other content both fail. -/
theorem C20_not_integer (o : BerObject) (h : ∀ bs, o.content ≠ .integer bs) :
    o.asBigint = .err .berValueError ∧ o.asBiguint = .err .berValueError := by
  unfold BerObject.asBigint BerObject.asBiguint
  cases hc : o.content <;> simp only [and_self]
  exact absurd hc (h _)

example : (BerObject.fromIntSlice (0xff :: List.replicate 20 0)).asBigint = .ok (-(2 ^ 160)) := by
  decide +kernel
example : (BerObject.fromIntSlice (0xff :: List.replicate 20 0)).asBiguint =
    .err .integerNegative := rfl

/-! ## C21 -/

/-- What C21 asks of `as_u64`. -/
def bitStringResult (u : UInt8) (d : Bytes) : Res Nat :=
  if (bitsOf d).length < u.toNat then .err .invalidLength
  else if 64 < (bitsOf d).length - u.toNat then .err .integerTooLarge
  else .ok (ofBits ((bitsOf d).take ((bitsOf d).length - u.toNat)))

/-- C21, `as_u64` on BIT STRING: the number formed by the used bits. -/
theorem C21_as_u64_bitstring (o : BerObject) (u : UInt8) (d : Bytes)
    (h : o.content = .bitString u d) : o.asU64 = bitStringResult u d := by
  unfold BerObject.asU64 bitStringResult
  rw [h, bitsOf_length, Nat.mul_comm]
  simp only [Content.asU64]
  unfold bitstringToU64
  dsimp only
  generalize u.toNat = p
  by_cases h1 : d.length * 8 < p
  · rw [if_pos h1, if_pos h1]
  rw [if_neg h1, if_neg h1]
  by_cases h2 : 64 < d.length * 8 - p
  · rw [if_pos h2, if_pos h2]
  rw [if_neg h2, if_neg h2]
  have hnb : ∃ nb, (if 0 < (d.length * 8 - p) % 8 then (d.length * 8 - p) / 8 + 1
      else (d.length * 8 - p) / 8) = nb ∧ nb ≤ d.length ∧ nb ≤ 8 ∧
      8 * nb - p % 8 = 8 * d.length - p ∧ p % 8 ≤ 8 * nb := by
    refine ⟨_, rfl, ?_⟩
    split <;> omega
  obtain ⟨nb, e, hn1, hn2, hn3, hn4⟩ := hnb
  rw [e, if_neg (by omega), shiftOr64_eq _ (by simp; omega), ← ofBits_bitsOf, bitsOf_take _ _ hn1]
  have hlen : ((bitsOf d).take (8 * nb)).length = 8 * nb := by
    rw [List.length_take, bitsOf_length]; omega
  rw [← ofBits_take _ (p % 8) (by omega), hlen, List.take_take, hn3]
  congr 3
  omega

example := C21_as_u64_bitstring (.fromObj (.bitString 4 [0xab, 0xc0])) _ _ rfl

/-- C21, `as_u32`: additionally values above `u32::MAX` are refused. -/
theorem C21_as_u32_bitstring (o : BerObject) (u : UInt8) (d : Bytes)
    (h : o.content = .bitString u d) :
    o.asU32 = bitStringResult u d >>? fun v =>
      if 2 ^ 32 ≤ v then .err .integerTooLarge else .ok v := by
  have h64 := C21_as_u64_bitstring o u d h
  unfold BerObject.asU64 at h64
  unfold BerObject.asU32
  rw [h] at h64 ⊢
  simp only [Content.asU64, Content.asU32] at h64 ⊢
  rw [h64]
  congr 1

example := C21_as_u32_bitstring (.fromObj (.bitString 4 [0xab, 0xc0])) _ _ rfl

/-- C21: the value always fits in 64 bits. -/
theorem C21_fits (u : UInt8) (d : Bytes) (v : Nat) (h : bitStringResult u d = .ok v) :
    v < 2 ^ 64 := by
  unfold bitStringResult at h
  split at h
  · simp at h
  · split at h
    · simp at h
    · simp only [ok.injEq] at h
      rw [← h]
      refine Nat.lt_of_lt_of_le (ofBits_lt _) (Nat.pow_le_pow_right (by decide) ?_)
      rw [List.length_take]; omega

example : (BerObject.fromObj (.bitString 4 [0xab, 0xc0])).asU64 = .ok 0xabc := by decide +kernel
example : bitStringResult 4 [0xab, 0xc0] = .ok 0xabc := by decide +kernel
example : (BerObject.fromObj (.bitString 17 [0xab, 0xc0])).asU64 = .err .invalidLength := rfl
example : (BerObject.fromObj (.bitString 0 (List.replicate 9 0))).asU64 = .err .integerTooLarge := rfl

/-! ## C22 -/

/-- C22: `is_set` never panics and reads bit `n` counted from the most significant one. -/
theorem C22_is_set (data : Bytes) (n : Nat) :
    bitStringIsSet data n = .ok (decide ((bitsOf data)[n]? = some true)) := by
  unfold bitStringIsSet
  simp only
  rw [bitsOf_getElem?]
  split
  · rename_i h
    rw [List.getElem?_eq_none h]
    simp
  · rename_i h
    rw [List.getElem?_eq_getElem (by omega)]
    simp only [Option.map_some, Option.some.injEq, ok.injEq]
    rw [Nat.testBit_eq_decide_div_mod_eq]
    generalize (data[n / 8]'_).toNat / 2 ^ (7 - n % 8) = x
    by_cases hx : x % 2 = 1
    · simp [hx]
    · have : x % 2 = 0 := by omega
      simp [this]

/-- C22: positions past the end are not set. -/
theorem C22_past_end (data : Bytes) (n : Nat) (h : 8 * data.length ≤ n) :
    bitStringIsSet data n = .ok false := by
  rw [C22_is_set, List.getElem?_eq_none (by rw [bitsOf_length]; exact h)]
  rfl

example : bitStringIsSet [0x05, 0x80] 5 = .ok true ∧ bitStringIsSet [0x05, 0x80] 6 = .ok false ∧
    bitStringIsSet [0x05, 0x80] 8 = .ok true ∧ bitStringIsSet [0x05, 0x80] 16 = .ok false := by
  decide

/-! ## C23 -/

theorem enumerated_eq (a : Any) : a.enumerated =
    if a.header.constructed then .err .constructUnexpected
    else if base256 a.data < 2 ^ 32 then .ok (base256 a.data) else .err .integerTooLarge := by
  unfold Any.enumerated Header.assertPrimitive
  split
  · rfl
  · simp only [ok_bind]
    rw [bytesToU64_eq]
    by_cases hs : a.data = []
    · rw [if_pos (.inr hs), hs]; simp [base256]
    by_cases h64 : 0 * 256 ^ a.data.length + base256 a.data < 2 ^ 64 ∨ a.data = []
    · rw [if_pos h64]
      simp only [Nat.zero_mul, Nat.zero_add]
      by_cases h32 : base256 a.data < 2 ^ 32
      · rw [if_pos h32, if_neg (show ¬ 4294967295 < base256 a.data by
          rw [show (2 : Nat) ^ 32 = 4294967296 from rfl] at h32; omega)]
      · rw [if_neg h32, if_pos (show 4294967295 < base256 a.data by
          rw [show (2 : Nat) ^ 32 = 4294967296 from rfl] at h32; omega)]
    · rw [if_neg h64, if_neg]
      intro h32
      exact h64 (.inl (by
        rw [Nat.zero_mul, Nat.zero_add]
        exact Nat.lt_trans h32 (by decide)))

/-- C23: a primitive universal ENUMERATED element is accepted by `parse_ber` iff its content as an
unsigned number fits 32 bits, and the value is that number. -/
theorem C23_enumerated (D : Deps) (hb c rest : Bytes) (h : Header) (H : BerHeader hb h)
    (hcls : h.cls = .universal) (ht : h.tag = 10) (hp : h.constructed = false)
    (hl : h.length = .definite c.length) :
    parseBer D (hb ++ c ++ rest) =
      if base256 c < 2 ^ 32 then .ok (rest, .mk h (.enum (base256 c)))
      else .err (.error .integerTooLarge) := by
  rw [parseBer_definite D H hl]
  have : objectFromAny D 50 ⟨h, c⟩ = (Any.enumerated ⟨h, c⟩).map fun n => .mk h (.enum n) := by
    rw [show (50 : Nat) = 49 + 1 from rfl]
    simp only [objectFromAny, hcls, ne_eq, not_true_eq_false, if_false, universalContent, ht, uKind]
    cases Any.enumerated ⟨h, c⟩ <;> rfl
  rw [this, enumerated_eq]
  simp only [hp, Bool.false_eq_true, if_false]
  split <;> rfl

example := C23_enumerated Tests.D0 [0x0a, 0x02] [0xff, 0x80] [9] (Tests.h .universal false 10 2 [10]) (berHeader_read rfl) rfl rfl rfl rfl

/-- C23 for `parse_ber_enum` (with the size limit of that function). -/
theorem C23_enumerated_with_tag (D : Deps) (hb c rest : Bytes) (h : Header) (H : BerHeader hb h)
    (ht : h.tag = 10) (hp : h.constructed = false)
    (hl : h.length = .definite c.length) (hmax : c.length ≤ 4294967295) :
    parseBerWithTag D Tag.enumerated (hb ++ c ++ rest) =
      if base256 c < 2 ^ 32 then .ok (rest, .mk h (.enum (base256 c)))
      else .err (.error .integerTooLarge) := by
  rw [parseBerWithTag_definite D _ H hl, if_neg (fun hn : h.tag ≠ Tag.enumerated => hn ht),
    if_neg (by unfold maxObjectSize; omega)]
  have : ∀ h' : Header, h'.cls = .universal → h'.tag = 10 →
      objectFromAny D 50 ⟨h', c⟩ = (Any.enumerated ⟨h', c⟩).map fun n => .mk h' (.enum n) := by
    intro h' hcls ht
    rw [show (50 : Nat) = 49 + 1 from rfl]
    simp only [objectFromAny, hcls, ne_eq, not_true_eq_false, if_false, universalContent, ht, uKind]
    cases Any.enumerated ⟨h', c⟩ <;> rfl
  rw [this (Header.new .universal h.constructed h.tag h.length) rfl ht, enumerated_eq]
  simp only [Header.new, hp, Bool.false_eq_true, if_false]
  split <;> rfl

/-- The class is not looked at. -/
example := C23_enumerated_with_tag Tests.D0 [0x8a, 0x02] [0xff, 0x80] [9] (Tests.h .contextSpecific false 10 2 [0x8a]) (berHeader_read rfl) rfl
  rfl rfl (by decide)

/-- C23: leading zero octets are allowed, to any number. -/
theorem C23_leading_zeroes (k : Nat) (c : Bytes) :
    base256 (List.replicate k 0 ++ c) = base256 c := by
  rw [base256_append, base256_replicate_zero]; simp

example : parseBer Tests.D0 [0x0a, 0x02, 0x00, 0xff] =
    .ok ([], .mk ⟨.universal, false, 10, .definite 2, some [10]⟩ (.enum 255)) := rfl
example : parseBer Tests.D0 [0x0a, 0x05, 0x01, 0, 0, 0, 0] = .err (.error .integerTooLarge) := rfl

end Verif
