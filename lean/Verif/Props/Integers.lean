import Verif.Props.Values
import Verif.Props.Der
/-!
# Native integer parsers: C72
-/
namespace Verif
open Outcome Spec

/-! ## C72 -/

namespace Spec

/-- `e` is a primitive element with tag number 2 and contents octets `c` (of any class, see C42). -/
def IntElement (e c : Bytes) : Prop :=
  ∃ hb h, e = hb ++ c ∧ BerHeader hb h ∧ h.tag = 2 ∧ h.constructed = false ∧
    h.length = .definite c.length

/-- X.690 8.3.2: at least one octet, and the first nine bits are neither all zero nor all one. -/
def MinimalInt (c : Bytes) : Prop :=
  c ≠ [] ∧ (bitsOf c).take 9 ≠ List.replicate 9 false ∧ (bitsOf c).take 9 ≠ List.replicate 9 true

end Spec

theorem anyFromBer_primitive {i rem : Bytes} {a : Any} (h : anyFromBer i = .ok (rem, a))
    (hp : a.header.constructed = false) :
    ∃ hb, i = hb ++ a.data ++ rem ∧ BerHeader hb a.header ∧
      a.header.length = .definite a.data.length := by
  obtain ⟨e, rfl, H⟩ := anyFromBer_framed.1 h
  obtain ⟨hb, H', rfl, hl⟩ := framed_primitive H hp
  exact ⟨hb, rfl, H', hl⟩

theorem assertTag_ok {h : Header} {t : Nat} : h.assertTag t = .ok () ↔ h.tag = t := by
  unfold Header.assertTag; split <;> simp_all

theorem assertPrimitive_ok {h : Header} : h.assertPrimitive = .ok () ↔ h.constructed = false := by
  unfold Header.assertPrimitive; split <;> simp_all

theorem nine_one_bits_mk (b : UInt8) (rest : Bytes) (hb : 128 ≤ b.toNat) :
    (bitsOf (0xff :: b :: rest)).take 9 = List.replicate 9 true := by
  have h7 : b.toNat.testBit 7 = decide (128 ≤ b.toNat) := (bits_table' _ b.toNat_lt).1
  have : bitsOf (0xff :: b :: rest) = bitsOfByte 0xff ++ (bitsOfByte b ++ bitsOf rest) := rfl
  rw [this, List.take_append, bitsOfByte_length, List.take_of_length_le (by
    rw [bitsOfByte_length]; omega)]
  have e : (bitsOfByte b ++ bitsOf rest).take (9 - 8) = [b.toNat.testBit 7] := by simp [bitsOfByte]
  rw [e, h7, decide_eq_true hb]
  rfl

theorem derIntConstraints_iff (c : Bytes) : derIntConstraints c = .ok () ↔ MinimalInt c := by
  constructor
  · exact fun h => derIntConstraints_min h
  · rintro ⟨h1, h2, h3⟩
    match c with
    | [] => exact absurd rfl h1
    | [_] => rfl
    | a :: b :: rest =>
      simp only [derIntConstraints]
      rw [if_neg, if_neg]
      · rintro ⟨rfl, hb⟩
        exact h3 (nine_one_bits_mk b rest hb)
      · rintro ⟨rfl, hb⟩
        exact h2 ((nine_zero_bits _).2 ⟨b, rest, rfl, hb⟩)

theorem twosComplement_below (a b : UInt8) (rest : Bytes) (ha : 128 ≤ a.toNat)
    (hff : ¬ (a.toNat = 255 ∧ 128 ≤ b.toNat)) :
    twosComplement (a :: b :: rest) < -((128 * 256 ^ rest.length : Nat) : Int) := by
  have ha' := a.toNat_lt
  have hb' := b.toNat_lt
  have hr := base256_lt rest
  have hh : isHighestBitSet (a :: b :: rest) = true := by simpa [isHighestBitSet] using ha
  have e1 : (2 : Nat) ^ (8 * (a :: b :: rest).length) = 65536 * 256 ^ rest.length := by
    rw [Nat.pow_mul, show (2 : Nat) ^ 8 = 256 from rfl, List.length_cons, List.length_cons,
      Nat.pow_succ, Nat.pow_succ]
    omega
  have e2 : base256 (a :: b :: rest) =
      a.toNat * (256 ^ rest.length * 256) + (b.toNat * 256 ^ rest.length + base256 rest) := by
    rw [base256, base256, List.length_cons, Nat.pow_succ]
  rw [twosComplement_eq, if_pos hh, e1, e2]
  generalize 256 ^ rest.length = m at *
  generalize base256 rest = r at *
  have h1 : a.toNat * (m * 256) = 256 * (a.toNat * m) := by
    rw [Nat.mul_comm m, ← Nat.mul_assoc, Nat.mul_comm a.toNat, Nat.mul_assoc]
  rw [h1]
  have h3 : b.toNat * m ≤ 255 * m := Nat.mul_le_mul_right m (by omega)
  by_cases hc : a.toNat = 255
  · have h4 : b.toNat * m ≤ 127 * m := Nat.mul_le_mul_right m (by omega)
    rw [hc]
    generalize b.toNat * m = y at *
    omega
  · have h4 : a.toNat * m ≤ 254 * m := Nat.mul_le_mul_right m (by omega)
    generalize a.toNat * m = x at *
    generalize b.toNat * m = y at *
    omega

/-- A minimal encoding of a negative number is no longer than needed. -/
theorem minimal_negative (n : Nat) (hn : 1 ≤ n) (c : Bytes) (hm : MinimalInt c)
    (h0 : twosComplement c < 0) :
    c.length ≤ n ↔ -(2 ^ (8 * n - 1) : Nat) ≤ twosComplement c := by
  constructor
  · intro hl
    have h1 := twosComplement_neg_ge c
    have h2 : (2 : Nat) ^ (8 * c.length) ≤ 2 ^ (8 * n) :=
      Nat.pow_le_pow_right (by decide) (by omega)
    have h3 : (2 : Nat) ^ (8 * n) = 2 * 2 ^ (8 * n - 1) := by
      rw [← Nat.pow_succ']; congr 1; omega
    generalize 2 ^ (8 * n - 1) = m at *
    generalize 2 ^ (8 * c.length) = k at *
    generalize 2 ^ (8 * n) = l at *
    omega
  · intro hv
    refine Classical.byContradiction fun hl => ?_
    have hh := (isHighestBitSet_iff c).2 h0
    cases c with
    | nil => exact hm.1 rfl
    | cons a c =>
      cases c with
      | nil => simp only [List.length_cons, List.length_nil] at hl; omega
      | cons b rest =>
        have ha : 128 ≤ a.toNat := by simpa [isHighestBitSet] using hh
        have hff : ¬ (a.toNat = 255 ∧ 128 ≤ b.toNat) := by
          rintro ⟨h1, h2⟩
          have : a = 0xff := UInt8.toNat_inj.1 h1
          subst this
          exact hm.2.2 (nine_one_bits_mk b rest h2)
        have h1 := twosComplement_below a b rest ha hff
        have e2 : (2 : Nat) ^ (8 * n - 1) ≤ 128 * 256 ^ rest.length := by
          have : 128 * 256 ^ rest.length = 2 ^ (8 * rest.length + 7) := by
            rw [Nat.pow_add, Nat.pow_mul, Nat.mul_comm]
          rw [this]
          refine Nat.pow_le_pow_right (by decide) ?_
          simp only [List.length_cons] at hl
          omega
        generalize 2 ^ (8 * n - 1) = k at *
        generalize 128 * 256 ^ rest.length = m at *
        omega

theorem twosComplement_removeFF (c : Bytes) : twosComplement (removeFF c) = twosComplement c := by
  induction c using removeFF.induct with
  | case1 => rfl
  | case2 => rfl
  | case3 b c rest hb ih =>
    rw [removeFF, if_pos hb, ih]
    obtain ⟨rfl, hc⟩ := hb
    have h1 : isHighestBitSet (c :: rest) = true := by simpa [isHighestBitSet] using hc
    have h2 : isHighestBitSet (0xff :: c :: rest) = true := rfl
    rw [twosComplement_eq, twosComplement_eq, if_pos h1, if_pos h2]
    have e1 : base256 (0xff :: c :: rest) = 255 * 256 ^ (c :: rest).length + base256 (c :: rest) := rfl
    have e2 : (2 : Nat) ^ (8 * (0xff :: c :: rest).length) = 256 * 256 ^ (c :: rest).length := by
      rw [Nat.pow_mul, show (2 : Nat) ^ 8 = 256 from rfl, List.length_cons, Nat.pow_succ, Nat.mul_comm]
    have e3 : (2 : Nat) ^ (8 * (c :: rest).length) = 256 ^ (c :: rest).length := by rw [Nat.pow_mul]
    rw [e1, e2, e3]
    generalize 256 ^ (c :: rest).length = m
    omega
  | case4 b c rest hb => rw [removeFF, if_neg hb]

/-- Of a negative number `trim_slice` leaves a minimal encoding. -/
theorem removeFF_minimal (c : Bytes) (h0 : isHighestBitSet c = true) : MinimalInt (removeFF c) := by
  induction c using removeFF.induct with
  | case1 => simp [isHighestBitSet] at h0
  | case2 b =>
    refine ⟨by simp [removeFF], ?_, ?_⟩ <;>
    · intro h
      have := congrArg List.length h
      simp [removeFF, bitsOf_length] at this
  | case3 b c rest hb ih =>
    rw [removeFF, if_pos hb]
    exact ih (by simpa [isHighestBitSet] using hb.2)
  | case4 b c rest hb =>
    rw [removeFF, if_neg hb]
    rw [← derIntConstraints_iff]
    simp only [derIntConstraints]
    rw [if_neg, if_neg hb]
    rintro ⟨rfl, -⟩
    simp [isHighestBitSet] at h0

theorem trimSlice_of_high {c : Bytes} (h0 : isHighestBitSet c = true) : trimSlice c = removeFF c := by
  match c with
  | [] => rfl
  | [b] =>
    simp only [trimSlice, removeFF]
    rw [if_neg (by rintro rfl; simp [isHighestBitSet] at h0)]
    split <;> rfl
  | b :: c :: rest =>
    simp only [trimSlice]
    rw [if_neg (by rintro rfl; simp [isHighestBitSet] at h0)]
    split
    · rfl
    · rename_i hb
      rw [removeFF, if_neg (fun h => hb h.1)]

/-- What the negative branch of asn1-rs computes: the value, if it fits. -/
theorem asnDecodeArrayInt_neg (n : Nat) (hn : 1 ≤ n) (c : Bytes) (h : isHighestBitSet c = true) :
    (asnDecodeArrayInt n c).map (fun a => asSigned (8 * n) (beNat a)) =
      if -(2 ^ (8 * n - 1) : Nat) ≤ twosComplement c then .ok (twosComplement c) else .err .integerTooLarge := by
  have hv := twosComplement_removeFF c
  have h0 := (isHighestBitSet_iff c).1 h
  have hm := removeFF_minimal c h
  have hh : isHighestBitSet (removeFF c) = true := (isHighestBitSet_iff _).2 (by rw [hv]; exact h0)
  have hl := minimal_negative n hn _ hm (by rw [hv]; exact h0)
  have e : asnDecodeArrayInt n c = decodeArrayInt n (removeFF c) := by
    unfold asnDecodeArrayInt decodeArrayInt
    rw [trimSlice_of_high h, removeZeroes_of_high hh]
  rw [e, decodeArrayInt_neg n _ hh, hv]
  rw [hv] at hl
  by_cases hx : -(2 ^ (8 * n - 1) : Nat) ≤ twosComplement c
  · rw [if_pos hx, if_neg (by have := hl.2 hx; omega)]
  · rw [if_neg hx, if_pos (by refine Nat.lt_of_not_le fun h => hx (hl.1 h))]

theorem uintFromAny_eq (n : Nat) (hn : 1 ≤ n) (a : Any) (ht : a.header.tag = 2)
    (hc : a.header.constructed = false) :
    uintFromAny n a = if twosComplement a.data < 0 then .err .integerNegative
      else if (2 ^ (8 * n) : Nat) ≤ twosComplement a.data then .err .integerTooLarge
      else .ok (twosComplement a.data).toNat := by
  unfold uintFromAny
  rw [assertTag_ok.2 (show a.header.tag = Tag.integer from ht), assertPrimitive_ok.2 hc]
  simp only [ok_bind]
  rw [asnDecodeArrayUint_eq, decodeArrayUint_eq n hn]
  by_cases h0 : twosComplement a.data < 0
  · rw [if_pos h0, if_pos h0]
  · rw [if_neg h0, if_neg h0, twosComplement_nonneg h0, Nat.pow_mul,
      show (2 : Nat) ^ 8 = 256 from rfl]
    simp only [Int.ofNat_le, Int.toNat_natCast]

theorem intFromAny_eq (n : Nat) (hn : 1 ≤ n) (a : Any) (ht : a.header.tag = 2)
    (hc : a.header.constructed = false) :
    intFromAny n a =
      if -(2 ^ (8 * n - 1) : Nat) ≤ twosComplement a.data ∧ twosComplement a.data < (2 ^ (8 * n - 1) : Nat) then
        .ok (twosComplement a.data)
      else .err .integerTooLarge := by
  unfold intFromAny
  rw [assertTag_ok.2 (show a.header.tag = Tag.integer from ht), assertPrimitive_ok.2 hc]
  simp only [ok_bind]
  by_cases hh : isHighestBitSet a.data = true
  · have h0 := (isHighestBitSet_iff _).1 hh
    rw [if_pos hh, asnDecodeArrayInt_neg n hn _ hh]
    have : (-(2 ^ (8 * n - 1) : Nat) ≤ twosComplement a.data ∧ twosComplement a.data < (2 ^ (8 * n - 1) : Nat)) ↔
        -(2 ^ (8 * n - 1) : Nat) ≤ twosComplement a.data := by
      generalize 2 ^ (8 * n - 1) = m; omega
    simp only [this]
  · have h0 : ¬ twosComplement a.data < 0 := fun h => hh ((isHighestBitSet_iff _).2 h)
    rw [if_neg hh, asnDecodeArrayUint_eq]
    have e : (decodeArrayUint n a.data >>? fun x =>
          if 2 ^ (8 * n - 1) ≤ beNat x then (.err .integerTooLarge : Res Int)
          else .ok (beNat x : Int)) =
        (decodeArrayUint n a.data).map beNat >>? fun x =>
          if 2 ^ (8 * n - 1) ≤ x then .err .integerTooLarge else .ok (x : Int) := by
      cases decodeArrayUint n a.data <;> rfl
    rw [e, decodeArrayUint_eq n hn, if_neg h0, twosComplement_nonneg h0]
    have hp : (2 : Nat) ^ (8 * n - 1) ≤ 256 ^ n := by
      rw [show (256 : Nat) = 2 ^ 8 from rfl, ← Nat.pow_mul]
      exact Nat.pow_le_pow_right (by decide) (by omega)
    generalize 2 ^ (8 * n - 1) = m at *
    split
    · rw [if_neg (by omega)]; rfl
    · simp only [ok_bind]
      split
      · rw [if_neg (by omega)]
      · rw [if_pos (by omega)]

/-- C72: the answer of `parse_ber_u32`/`parse_ber_u64` (`n` = 4 / 8) on any INTEGER element: the two's
complement value, `IntegerNegative` or `IntegerTooLarge`. -/
theorem C72_ber_unsigned_result (n : Nat) (hn : 1 ≤ n) (e c rest : Bytes) (he : IntElement e c) :
    parseBerUint n (e ++ rest) =
      if twosComplement c < 0 then .err (.error .integerNegative)
      else if (2 ^ (8 * n) : Nat) ≤ twosComplement c then .err (.error .integerTooLarge)
      else .ok (rest, (twosComplement c).toNat) := by
  obtain ⟨hb, h, rfl, H, ht, hc, hl⟩ := he
  unfold parseBerUint
  rw [anyFromBer_definite H hl]
  simp only [ok_bind]
  rw [uintFromAny_eq n hn ⟨h, c⟩ ht hc]
  simp only
  split
  · rfl
  · split <;> rfl

example := C72_ber_unsigned_result 4 (by decide) [0x02, 0x02, 0xff, 0x7f] [0xff, 0x7f] [9]
  ⟨[0x02, 0x02], _, rfl, berHeader_read rfl, rfl, rfl, rfl⟩

/-- C72: the answer of `parse_ber_i32`/`parse_ber_i64` on any INTEGER element: the two's complement value if it
fits the type, else `IntegerTooLarge`. -/
theorem C72_ber_signed_result (n : Nat) (hn : 1 ≤ n) (e c rest : Bytes) (he : IntElement e c) :
    parseBerInt n (e ++ rest) =
      if -(2 ^ (8 * n - 1) : Nat) ≤ twosComplement c ∧ twosComplement c < (2 ^ (8 * n - 1) : Nat) then
        .ok (rest, twosComplement c)
      else .err (.error .integerTooLarge) := by
  obtain ⟨hb, h, rfl, H, ht, hc, hl⟩ := he
  unfold parseBerInt
  rw [anyFromBer_definite H hl]
  simp only [ok_bind]
  rw [intFromAny_eq n hn ⟨h, c⟩ ht hc]
  simp only
  split <;> rfl

/-- C72: `parse_ber_u32`/`parse_ber_u64` accept exactly the INTEGER elements whose value fits, and
return it. -/
theorem C72_ber_unsigned (n : Nat) (hn : 1 ≤ n) (i rem : Bytes) (v : Nat) :
    parseBerUint n i = .ok (rem, v) ↔
      ∃ e c, i = e ++ rem ∧ IntElement e c ∧ twosComplement c = v ∧ v < 2 ^ (8 * n) := by
  constructor
  · intro h
    have h' := h
    unfold parseBerUint at h
    obtain ⟨⟨r, a⟩, h1, h⟩ := bind_eq_ok.1 h
    obtain ⟨w, h4, h⟩ := bind_eq_ok.1 h
    simp only [ok.injEq, Prod.mk.injEq] at h
    obtain ⟨rfl, rfl⟩ := h
    rw [liftRes_eq_ok] at h4
    unfold uintFromAny at h4
    obtain ⟨_, h5, h6⟩ := bind_eq_ok.1 h4
    obtain ⟨_, h7, -⟩ := bind_eq_ok.1 h6
    obtain ⟨hb, rfl, H, hl⟩ := anyFromBer_primitive h1 (assertPrimitive_ok.1 h7)
    have he : IntElement (hb ++ a.data) a.data :=
      ⟨hb, a.header, rfl, H, assertTag_ok.1 h5, assertPrimitive_ok.1 h7, hl⟩
    refine ⟨_, _, rfl, he, ?_⟩
    rw [C72_ber_unsigned_result n hn _ _ _ he] at h'
    split at h'
    · cases h'
    · split at h'
      · cases h'
      · simp only [ok.injEq, Prod.mk.injEq, true_and] at h'
        subst h'
        generalize 2 ^ (8 * n) = m at *
        omega
  · rintro ⟨e, c, rfl, he, h1, h2⟩
    rw [C72_ber_unsigned_result n hn _ _ _ he, h1]
    rw [if_neg (by omega), if_neg (by generalize 2 ^ (8 * n) = m at *; omega)]
    rfl

example := (C72_ber_unsigned 4 (by decide) [0x02, 0x02, 0x01, 0x00, 9] [9] 256).1 rfl

/-- C72: `parse_ber_i32`/`parse_ber_i64` accept exactly the INTEGER elements whose value fits, and return it. -/
theorem C72_ber_signed (n : Nat) (hn : 1 ≤ n) (i rem : Bytes) (v : Int) :
    parseBerInt n i = .ok (rem, v) ↔
      ∃ e c, i = e ++ rem ∧ IntElement e c ∧ twosComplement c = v ∧
        -(2 ^ (8 * n - 1) : Nat) ≤ v ∧ v < (2 ^ (8 * n - 1) : Nat) := by
  constructor
  · intro h
    have h' := h
    unfold parseBerInt at h
    obtain ⟨⟨r, a⟩, h1, h⟩ := bind_eq_ok.1 h
    obtain ⟨w, h4, h⟩ := bind_eq_ok.1 h
    simp only [ok.injEq, Prod.mk.injEq] at h
    obtain ⟨rfl, rfl⟩ := h
    rw [liftRes_eq_ok] at h4
    unfold intFromAny at h4
    obtain ⟨_, h5, h6⟩ := bind_eq_ok.1 h4
    obtain ⟨_, h7, -⟩ := bind_eq_ok.1 h6
    obtain ⟨hb, rfl, H, hl⟩ := anyFromBer_primitive h1 (assertPrimitive_ok.1 h7)
    have he : IntElement (hb ++ a.data) a.data :=
      ⟨hb, a.header, rfl, H, assertTag_ok.1 h5, assertPrimitive_ok.1 h7, hl⟩
    refine ⟨_, _, rfl, he, ?_⟩
    rw [C72_ber_signed_result n hn _ _ _ he] at h'
    split at h'
    · rename_i hx
      simp only [ok.injEq, Prod.mk.injEq, true_and] at h'
      subst h'
      exact ⟨rfl, hx⟩
    · cases h'
  · rintro ⟨e, c, rfl, he, h1, h2⟩
    rw [C72_ber_signed_result n hn _ _ _ he, h1, if_pos h2]

example := (C72_ber_signed 4 (by decide) [0x02, 0x06, 0xff, 0xff, 0xff, 0xff, 0xff, 0x7f, 9] [9] (-129)).1
  (by decide +kernel)

theorem anyFromDer_iff {i rem : Bytes} {a : Any} : anyFromDer i = .ok (rem, a) ↔
    ∃ hb, i = hb ++ a.data ++ rem ∧ BerHeader hb a.header ∧
      a.header.length = .definite a.data.length := by
  constructor
  · intro h
    obtain ⟨i1, l, h1, h2, rfl, h4⟩ := anyFromDer_ok h
    obtain ⟨hb, rfl, H⟩ := headerFromDer_iff.1 h1
    exact ⟨hb, by simp, H.toBerHeader, by rw [h2, h4]⟩
  · rintro ⟨hb, rfl, H, hl⟩
    have hd : headerFromDer (hb ++ (a.data ++ rem)) = .ok (a.data ++ rem, a.header) :=
      headerFromDer_iff.2 ⟨hb, rfl, ⟨H, by rw [hl]; simp⟩⟩
    unfold anyFromDer
    rw [List.append_assoc, hd]
    simp only [ok_bind, hl, Length.definite?]
    have ht : takeStreaming (E := BerError) a.data.length (a.data ++ rem) = .ok (rem, a.data) := by
      simp only [takeStreaming, List.length_append]
      rw [if_neg (by omega), List.drop_left, List.take_left]
    show takeStreaming a.data.length (a.data ++ rem) >>? _ = _
    rw [ht]
    rfl

/-- C72: `parse_der_u32`/`parse_der_u64` accept exactly the minimally encoded INTEGER elements whose
value fits, and return it. -/
theorem C72_der_unsigned (n : Nat) (hn : 1 ≤ n) (i rem : Bytes) (v : Nat) :
    parseDerUint n i = .ok (rem, v) ↔
      ∃ e c, i = e ++ rem ∧ IntElement e c ∧ MinimalInt c ∧ twosComplement c = v ∧
        v < 2 ^ (8 * n) := by
  constructor
  · intro h
    unfold parseDerUint at h
    obtain ⟨⟨r, a⟩, h1, h⟩ := bind_eq_ok.1 h
    obtain ⟨_, h2, h⟩ := bind_eq_ok.1 h
    obtain ⟨_, h3, h⟩ := bind_eq_ok.1 h
    obtain ⟨w, h4, h⟩ := bind_eq_ok.1 h
    simp only [ok.injEq, Prod.mk.injEq] at h
    obtain ⟨rfl, rfl⟩ := h
    rw [liftRes_eq_ok] at h2 h3 h4
    have h4' := h4
    unfold uintFromAny at h4'
    obtain ⟨_, h5, -⟩ := bind_eq_ok.1 h4'
    obtain ⟨hb, rfl, H, hl⟩ := anyFromDer_iff.1 h1
    rw [uintFromAny_eq n hn a (assertTag_ok.1 h5) (assertPrimitive_ok.1 h2)] at h4
    refine ⟨_, a.data, rfl, ⟨hb, a.header, rfl, H, assertTag_ok.1 h5, assertPrimitive_ok.1 h2, hl⟩,
      (derIntConstraints_iff _).1 h3, ?_⟩
    split at h4
    · cases h4
    · split at h4
      · cases h4
      · simp only [ok.injEq] at h4
        subst h4
        generalize 2 ^ (8 * n) = m at *
        omega
  · rintro ⟨e, c, rfl, ⟨hb, h, rfl, H, ht, hc, hl⟩, hm, h1, h2⟩
    unfold parseDerUint
    rw [anyFromDer_iff (a := ⟨h, c⟩) |>.2 ⟨hb, rfl, H, hl⟩]
    simp only [ok_bind]
    rw [assertPrimitive_ok.2 hc, (derIntConstraints_iff c).2 hm, uintFromAny_eq n hn ⟨h, c⟩ ht hc]
    simp only [h1]
    rw [if_neg (by omega), if_neg (by generalize 2 ^ (8 * n) = m at *; omega)]
    rfl

example := (C72_der_unsigned 4 (by decide) [0x02, 0x02, 0x01, 0x00, 9] [9] 256).1 rfl

/-- C72: `parse_der_i32`/`parse_der_i64` accept exactly the minimally encoded INTEGER elements whose
value fits, and return it. -/
theorem C72_der_signed (n : Nat) (hn : 1 ≤ n) (i rem : Bytes) (v : Int) :
    parseDerInt n i = .ok (rem, v) ↔
      ∃ e c, i = e ++ rem ∧ IntElement e c ∧ MinimalInt c ∧ twosComplement c = v ∧
        -(2 ^ (8 * n - 1) : Nat) ≤ v ∧ v < (2 ^ (8 * n - 1) : Nat) := by
  constructor
  · intro h
    unfold parseDerInt at h
    obtain ⟨⟨r, a⟩, h1, h⟩ := bind_eq_ok.1 h
    obtain ⟨_, h2, h⟩ := bind_eq_ok.1 h
    obtain ⟨_, h3, h⟩ := bind_eq_ok.1 h
    obtain ⟨w, h4, h⟩ := bind_eq_ok.1 h
    simp only [ok.injEq, Prod.mk.injEq] at h
    obtain ⟨rfl, rfl⟩ := h
    rw [liftRes_eq_ok] at h2 h3 h4
    have h4' := h4
    unfold intFromAny at h4'
    obtain ⟨_, h5, -⟩ := bind_eq_ok.1 h4'
    obtain ⟨hb, rfl, H, hl⟩ := anyFromDer_iff.1 h1
    rw [intFromAny_eq n hn a (assertTag_ok.1 h5) (assertPrimitive_ok.1 h2)] at h4
    have hm := (derIntConstraints_iff _).1 h3
    refine ⟨_, a.data, rfl, ⟨hb, a.header, rfl, H, assertTag_ok.1 h5, assertPrimitive_ok.1 h2, hl⟩,
      hm, ?_⟩
    split at h4
    · rename_i hx
      simp only [ok.injEq] at h4
      subst h4
      exact ⟨rfl, hx⟩
    · cases h4
  · rintro ⟨e, c, rfl, ⟨hb, h, rfl, H, ht, hc, hl⟩, hm, h1, h2, h3⟩
    unfold parseDerInt
    rw [anyFromDer_iff (a := ⟨h, c⟩) |>.2 ⟨hb, rfl, H, hl⟩]
    simp only [ok_bind]
    rw [assertPrimitive_ok.2 hc, (derIntConstraints_iff c).2 hm, intFromAny_eq n hn ⟨h, c⟩ ht hc]
    simp only [h1]
    rw [if_pos ⟨h2, h3⟩]
    rfl

example := (C72_der_signed 4 (by decide) [0x02, 0x02, 0xff, 0x7f, 9] [9] (-129)).1 (by decide +kernel)

/-- One-step and two-step parsing give the same number or the same error. -/
def SameAnswer (rest : Bytes) (x : IRes BerError Int) (y : Res Int) : Prop :=
  (∃ v, x = .ok (rest, v) ∧ y = .ok v) ∨ ∃ e, x = .err (.error e) ∧ y = .err e

theorem agree_iff (n m k : Nat) (hlt : m < k) (t : Int) (l : Nat) (hl : t < 0 → l ≤ n → -(m : Int) ≤ t)
    (rest : Bytes) :
    SameAnswer rest
        (if -(m : Int) ≤ t ∧ t < (m : Int) then (.ok (rest, t) : IRes BerError Int)
          else .err (.error .integerTooLarge))
        (if t < 0 then if n < l then (.err .integerTooLarge : Res Int) else .ok t
        else if (k : Int) ≤ t then .err .integerTooLarge
        else if t < (m : Int) then .ok t else .ok (t - (k : Int))) ↔
      ¬ ((m : Int) ≤ t ∧ t < (k : Int)) ∧ ¬ (-(m : Int) ≤ t ∧ t < 0 ∧ n < l) := by
  unfold SameAnswer
  by_cases h0 : t < 0
  · simp only [h0, if_true]
    by_cases h1 : n < l
    · by_cases h2 : -(m : Int) ≤ t
      · simp [h1, h2, show t < (m : Int) by omega]
      · simp [h1, h2]; omega
    · have := hl h0 (by omega)
      simp [h1, this, show t < (m : Int) by omega]; omega
  · simp only [h0, if_false]
    by_cases h1 : (m : Int) ≤ t
    · by_cases h2 : (k : Int) ≤ t
      · simp [show ¬ t < (m : Int) by omega, h2]
      · simp [show ¬ t < (m : Int) by omega, h1, h2, show t < (k : Int) by omega]
    · have h3 : ¬ (k : Int) ≤ t := by omega
      have h4 : t < (m : Int) := by omega
      simp [h1, h3, h4, show -(m : Int) ≤ t by omega]

/-- A number in at most `n` octets fits a signed type of `n` octets. -/
theorem twosComplement_fits (c : Bytes) (n : Nat) (h0 : twosComplement c < 0) (hl : c.length ≤ n) :
    -(2 ^ (8 * n - 1) : Nat) ≤ twosComplement c := by
  have hn : 1 ≤ n := by
    cases c with
    | nil => simp [twosComplement, bitsOf] at h0
    | cons => simp at hl; omega
  have h1 := twosComplement_neg_ge c
  have h2 : (2 : Nat) ^ (8 * c.length) ≤ 2 ^ (8 * n) := Nat.pow_le_pow_right (by decide) (by omega)
  have h3 : (2 : Nat) ^ (8 * n) = 2 * 2 ^ (8 * n - 1) := by
    rw [← Nat.pow_succ']; congr 1; omega
  generalize 2 ^ (8 * n - 1) = m at *
  generalize 2 ^ (8 * c.length) = k at *
  generalize 2 ^ (8 * n) = l at *
  omega

/-- C72: `parse_ber_i64` (`parse_ber_i32`) and `as_i64` (`as_i32`) give the same answer on an INTEGER
element except in two cases.  Values in 2^63 .. 2^64-1 (2^31 .. 2^32-1), which the accessors return as negative
numbers, are refused by the parsers.  Negative numbers that fit the type but are written with more than eight (four)
octets are returned by the parsers and refused by the accessors. -/
theorem C72_one_step_two_steps_signed (o : BerObject) (c : Bytes) (ho : o.content = .integer c)
    (e rest : Bytes) (he : IntElement e c) :
    (SameAnswer rest (parseBerInt 8 (e ++ rest)) o.asI64 ↔
      ¬ ((2 ^ 63 : Nat) ≤ twosComplement c ∧ twosComplement c < (2 ^ 64 : Nat)) ∧
      ¬ (-(2 ^ 63 : Nat) ≤ twosComplement c ∧ twosComplement c < 0 ∧ 8 < c.length)) ∧
    (SameAnswer rest (parseBerInt 4 (e ++ rest)) o.asI32 ↔
      ¬ ((2 ^ 31 : Nat) ≤ twosComplement c ∧ twosComplement c < (2 ^ 32 : Nat)) ∧
      ¬ (-(2 ^ 31 : Nat) ≤ twosComplement c ∧ twosComplement c < 0 ∧ 4 < c.length)) := by
  rw [C72_ber_signed_result 8 (by decide) e c rest he, C18_as_i64_partial o c ho,
    C72_ber_signed_result 4 (by decide) e c rest he, C18_as_i32_partial o c ho]
  exact ⟨agree_iff 8 (2 ^ 63) (2 ^ 64) (by decide) _ _ (twosComplement_fits c 8) _,
    agree_iff 4 (2 ^ 31) (2 ^ 32) (by decide) _ _ (twosComplement_fits c 4) _⟩

example : IntElement [0x02, 0x02, 0xff, 0x7f] [0xff, 0x7f] :=
  ⟨[0x02, 0x02], ⟨.universal, false, 2, .definite 2, some [2]⟩, rfl,
    ⟨⟨[2], [2], 2, rfl, IdentOctets.low 2 (by decide), LenOctets.short 2 (by decide), by decide,
      by simp, rfl⟩, fun n hn => by simp only [Length.definite.injEq] at hn; omega, by simp⟩,
    rfl, rfl, rfl⟩
example : MinimalInt [0xff, 0x7f] := by unfold MinimalInt; decide
example : parseDerInt 4 [0x02, 0x02, 0xff, 0x7f, 1] = .ok ([1], -129) := by decide +kernel
example : parseBerInt 8 [0x02, 0x09, 0, 0x80, 0, 0, 0, 0, 0, 0, 0] =
    .err (.error .integerTooLarge) := by decide +kernel

end Verif
