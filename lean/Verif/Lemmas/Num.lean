import Verif.Lemmas.HeaderSpec
/-!
# Numbers: octet strings, bits, two's complement
-/
namespace Verif
open Outcome Spec

/-! ## Octets -/

theorem base256_append (a b : Bytes) :
    base256 (a ++ b) = base256 a * 256 ^ b.length + base256 b := by
  induction a with
  | nil => simp [base256]
  | cons x xs ih =>
    simp only [List.cons_append, base256, List.length_append, ih, Nat.pow_add, Nat.add_mul]
    rw [Nat.mul_assoc]; omega

theorem base256_lt (bs : Bytes) : base256 bs < 256 ^ bs.length := by
  induction bs with
  | nil => simp [base256]
  | cons b bs ih =>
    have hb := b.toNat_lt
    simp only [base256, List.length_cons, Nat.pow_succ]
    have : b.toNat * 256 ^ bs.length ≤ 255 * 256 ^ bs.length := Nat.mul_le_mul_right _ (by omega)
    omega

theorem beNat_eq (bs : Bytes) : beNat bs = base256 bs := by
  have key : ∀ (bs : Bytes) (u : Nat), bs.foldl (fun u b => u * 256 + b.toNat) u =
      u * 256 ^ bs.length + base256 bs := by
    intro bs
    induction bs with
    | nil => intro u; simp [base256]
    | cons b bs ih =>
      intro u
      simp only [List.foldl_cons, ih, base256, List.length_cons, Nat.pow_succ, Nat.add_mul]
      rw [Nat.mul_assoc, Nat.mul_comm 256]; omega
  simp [beNat, key]

theorem base256_replicate_zero (n : Nat) : base256 (List.replicate n 0) = 0 := by
  induction n with
  | zero => rfl
  | succ n ih => simp [List.replicate_succ, base256, ih]

/-! ## Bits -/

theorem ofBits_append (a b : List Bool) : ofBits (a ++ b) = ofBits a * 2 ^ b.length + ofBits b := by
  induction a with
  | nil => simp [ofBits]
  | cons x xs ih =>
    simp only [List.cons_append, ofBits, List.length_append, ih, Nat.pow_add, Nat.add_mul]
    split <;> omega

theorem ofBits_lt (l : List Bool) : ofBits l < 2 ^ l.length := by
  induction l with
  | nil => simp [ofBits]
  | cons x xs ih =>
    simp only [ofBits, List.length_cons, Nat.pow_succ]
    split <;> omega

theorem bitsOfByte_length (b : UInt8) : (bitsOfByte b).length = 8 := by simp [bitsOfByte]

theorem bitsOf_length (bs : Bytes) : (bitsOf bs).length = 8 * bs.length := by
  induction bs with
  | nil => rfl
  | cons b bs ih =>
    simp only [bitsOf, List.flatMap_cons, List.length_append, bitsOfByte_length, List.length_cons] at *
    omega

theorem bits_table : ∀ n < 256, ofBits ([7, 6, 5, 4, 3, 2, 1, 0].map fun k => n.testBit k) = n := by
  decide +kernel

theorem bits_table' : ∀ n < 256, n.testBit 7 = decide (128 ≤ n) ∧
    ofBits ([6, 5, 4, 3, 2, 1, 0].map fun k => n.testBit k) = n % 128 := by
  decide +kernel

theorem ofBits_bitsOfByte (b : UInt8) : ofBits (bitsOfByte b) = b.toNat :=
  bits_table b.toNat b.toNat_lt

theorem ofBits_bitsOf (bs : Bytes) : ofBits (bitsOf bs) = base256 bs := by
  induction bs with
  | nil => rfl
  | cons b bs ih =>
    have : bitsOf (b :: bs) = bitsOfByte b ++ bitsOf bs := rfl
    rw [this, ofBits_append, ofBits_bitsOfByte, ih, bitsOf_length, base256, Nat.pow_mul]

/-- The first `n` bits of a longer string are a quotient. -/
theorem ofBits_take (l : List Bool) (k : Nat) (hk : k ≤ l.length) :
    ofBits (l.take (l.length - k)) = ofBits l / 2 ^ k := by
  have h : l = l.take (l.length - k) ++ l.drop (l.length - k) := (List.take_append_drop _ _).symm
  have hlen : (l.drop (l.length - k)).length = k := by simp; omega
  have hv : ofBits l = ofBits (l.take (l.length - k)) * 2 ^ k + ofBits (l.drop (l.length - k)) := by
    conv => lhs; rw [h]
    rw [ofBits_append, hlen]
  have hlt := ofBits_lt (l.drop (l.length - k))
  rw [hlen] at hlt
  have hpos : 0 < 2 ^ k := Nat.pow_pos (by decide)
  rw [hv, Nat.mul_comm, Nat.mul_add_div hpos, Nat.div_eq_of_lt hlt, Nat.add_zero]

/-! ## Two's complement -/

theorem twosComplement_eq (bs : Bytes) : twosComplement bs =
    if isHighestBitSet bs then (base256 bs : Int) - (2 ^ (8 * bs.length) : Nat)
    else (base256 bs : Int) := by
  cases bs with
  | nil => rfl
  | cons b bs =>
    have hb := b.toNat_lt
    obtain ⟨t1, t2⟩ := bits_table' b.toNat hb
    have hbits : bitsOf (b :: bs) = b.toNat.testBit 7 ::
        (([6, 5, 4, 3, 2, 1, 0].map fun k => b.toNat.testBit k) ++ bitsOf bs) := rfl
    have hlen : (([6, 5, 4, 3, 2, 1, 0].map fun k => b.toNat.testBit k) ++ bitsOf bs).length =
        7 + 8 * bs.length := by simp [bitsOf_length]; omega
    unfold twosComplement
    rw [hbits]
    simp only
    rw [ofBits_append, t2, t1, hlen, ofBits_bitsOf, bitsOf_length, isHighestBitSet, base256]
    have e1 : (2 : Nat) ^ (8 * bs.length) = 256 ^ bs.length := by rw [Nat.pow_mul]
    have e2 : (2 : Int) ^ (7 + 8 * bs.length) = ((128 * 256 ^ bs.length : Nat) : Int) := by
      rw [Int.pow_add]
      have : ((2 : Int) ^ (8 * bs.length)) = ((256 ^ bs.length : Nat) : Int) := by
        rw [Int.pow_mul]; norm_cast
      rw [this]; simp
    have e3 : (2 : Nat) ^ (8 * (b :: bs).length) = 256 * 256 ^ bs.length := by
      rw [Nat.pow_mul]; simp [Nat.pow_succ, Nat.mul_comm]
    rw [e1, e2, e3]
    generalize 256 ^ bs.length = P
    by_cases h : 128 ≤ b.toNat
    · simp only [h, decide_true, if_true]
      have : b.toNat % 128 = b.toNat - 128 := by omega
      rw [this]
      have hm : (b.toNat - 128) * P + 128 * P = b.toNat * P := by
        rw [← Nat.add_mul, Nat.sub_add_cancel h]
      have h256 : (256 * P : Nat) = 128 * P + 128 * P := by omega
      rw [h256, ← hm]
      push_cast
      omega
    · simp only [h, decide_false, Bool.false_eq_true, if_false]
      have : b.toNat % 128 = b.toNat := by omega
      rw [this]
      simp

theorem isHighestBitSet_iff (bs : Bytes) : isHighestBitSet bs = true ↔ twosComplement bs < 0 := by
  rw [twosComplement_eq]
  have hlt := base256_lt bs
  have e : (2 : Nat) ^ (8 * bs.length) = 256 ^ bs.length := by rw [Nat.pow_mul]
  rw [e]
  constructor
  · intro h; rw [if_pos h]; omega
  · intro h
    by_cases h' : isHighestBitSet bs = true
    · exact h'
    · rw [if_neg h'] at h; omega

/-! ## Leading zeroes -/

theorem base256_removeZeroes (bs : Bytes) : base256 (removeZeroes bs) = base256 bs := by
  induction bs using removeZeroes.induct with
  | case1 => rfl
  | case2 => rfl
  | case3 c rest ih => simp only [removeZeroes, if_true]; rw [ih]; simp [base256]
  | case4 b c rest hb => simp [removeZeroes, hb]

theorem removeZeroes_length_le (bs : Bytes) : (removeZeroes bs).length ≤ bs.length := by
  induction bs using removeZeroes.induct with
  | case1 => simp [removeZeroes]
  | case2 => simp [removeZeroes]
  | case3 c rest ih => simp only [removeZeroes, if_true, List.length_cons] at *; omega
  | case4 b c rest hb => simp [removeZeroes, hb]

/-- Without leading zeroes the length is the number of base-256 digits (one for zero). -/
theorem removeZeroes_length (bs : Bytes) (n : Nat) (hn : 1 ≤ n) :
    n < (removeZeroes bs).length ↔ 256 ^ n ≤ base256 bs := by
  induction bs using removeZeroes.induct with
  | case1 =>
    have : 0 < 256 ^ n := Nat.pow_pos (by decide)
    simp only [removeZeroes, base256, List.length_nil]; omega
  | case2 b =>
    have hb := b.toNat_lt
    have : 256 ^ 1 ≤ 256 ^ n := Nat.pow_le_pow_right (by decide) hn
    simp [removeZeroes, base256]; omega
  | case3 c rest ih =>
    simp only [removeZeroes, if_true]
    rw [ih]; simp [base256]
  | case4 b c rest hb =>
    simp only [removeZeroes, hb, if_false]
    have hb' : b.toNat ≠ 0 := fun h => hb (UInt8.toNat_inj.1 (by simpa using h))
    constructor
    · intro h
      rw [base256]
      have h1 : 256 ^ n ≤ 256 ^ (c :: rest).length :=
        Nat.pow_le_pow_right (by decide) (by simp at h ⊢; omega)
      have h2 : 1 * 256 ^ (c :: rest).length ≤ b.toNat * 256 ^ (c :: rest).length :=
        Nat.mul_le_mul_right _ (by omega)
      omega
    · intro h
      have h1 := base256_lt (b :: c :: rest)
      have h2 : 256 ^ n < 256 ^ (b :: c :: rest).length := by omega
      exact (Nat.pow_lt_pow_iff_right (by decide)).1 h2

/-- What `decode_array_uintN` computes. -/
theorem decodeArrayUint_eq (n : Nat) (hn : 1 ≤ n) (bs : Bytes) :
    (decodeArrayUint n bs).map beNat =
      if twosComplement bs < 0 then .err .integerNegative
      else if 256 ^ n ≤ base256 bs then .err .integerTooLarge
      else .ok (base256 bs) := by
  unfold decodeArrayUint
  by_cases h : isHighestBitSet bs = true
  · rw [if_pos h, if_pos ((isHighestBitSet_iff bs).1 h)]; rfl
  · rw [if_neg h, if_neg (fun h' => h ((isHighestBitSet_iff bs).2 h'))]
    simp only
    by_cases h2 : n < (removeZeroes bs).length
    · rw [if_pos h2, if_pos ((removeZeroes_length bs n hn).1 h2)]; rfl
    · rw [if_neg h2, if_neg (fun h' => h2 ((removeZeroes_length bs n hn).2 h')),
        if_neg (by omega)]
      simp only [Outcome.map, beNat_eq, base256_append, base256_replicate_zero,
        base256_removeZeroes, Nat.zero_mul, Nat.zero_add]

theorem twosComplement_nonneg {bs : Bytes} (h : ¬ twosComplement bs < 0) :
    twosComplement bs = (base256 bs : Int) := by
  rw [twosComplement_eq, if_neg]
  intro h'
  exact h ((isHighestBitSet_iff bs).1 h')

theorem removeZeroes_of_high {bs : Bytes} (h : isHighestBitSet bs = true) :
    removeZeroes bs = bs := by
  induction bs using removeZeroes.induct with
  | case1 => rfl
  | case2 => rfl
  | case3 c rest ih => simp [isHighestBitSet] at h
  | case4 b c rest hb => simp [removeZeroes, hb]

theorem base256_replicate_ff (n : Nat) : base256 (List.replicate n 0xff) = 256 ^ n - 1 := by
  induction n with
  | zero => rfl
  | succ n ih =>
    have : 0 < 256 ^ n := Nat.pow_pos (by decide)
    simp only [List.replicate_succ, base256, ih, List.length_replicate, Nat.pow_succ]
    rw [show (255 : UInt8).toNat = 255 from rfl]
    omega

/-- What the negative branch of `decode_array_intN` computes. -/
theorem decodeArrayInt_neg (n : Nat) (bs : Bytes) (h : isHighestBitSet bs = true) :
    (decodeArrayInt n bs).map (fun a => asSigned (8 * n) (beNat a)) =
      if n < bs.length then .err .integerTooLarge else .ok (twosComplement bs) := by
  unfold decodeArrayInt
  rw [removeZeroes_of_high h]
  simp only
  by_cases hl : n < bs.length
  · rw [if_pos hl, if_pos hl]; rfl
  · rw [if_neg hl, if_neg hl]
    simp only [Outcome.map, beNat_eq, base256_append, base256_replicate_ff, Outcome.ok.injEq]
    rw [twosComplement_eq, if_pos h]
    have hne : bs ≠ [] := by rintro rfl; simp [isHighestBitSet] at h
    obtain ⟨b, rest, rfl⟩ := List.exists_cons_of_ne_nil hne
    have hb : 128 ≤ b.toNat := by simpa [isHighestBitSet] using h
    have hlow : 128 * 256 ^ rest.length ≤ base256 (b :: rest) := by
      rw [base256]
      have := Nat.mul_le_mul_right (256 ^ rest.length) hb
      omega
    obtain ⟨m, rfl⟩ : ∃ m, n = m + (rest.length + 1) := ⟨n - (rest.length + 1), by
      simp at hl; omega⟩
    have e1 : m + (rest.length + 1) - (b :: rest).length = m := by simp
    have e2 : (2 : Nat) ^ (8 * (b :: rest).length) = 256 * 256 ^ rest.length := by
      rw [Nat.pow_mul]; simp [Nat.pow_succ, Nat.mul_comm]
    have e3 : (256 : Nat) ^ (b :: rest).length = 256 * 256 ^ rest.length := by
      simp [Nat.pow_succ, Nat.mul_comm]
    have e4 : (2 : Nat) ^ (8 * (m + (rest.length + 1))) = 256 ^ m * (256 * 256 ^ rest.length) := by
      rw [Nat.pow_mul]; simp [Nat.pow_add, Nat.mul_comm]
    have e5 : (2 : Nat) ^ (8 * (m + (rest.length + 1)) - 1) = 256 ^ m * (128 * 256 ^ rest.length) := by
      have : 8 * (m + (rest.length + 1)) - 1 = 8 * m + (7 + 8 * rest.length) := by omega
      rw [this, Nat.pow_add, Nat.pow_add, Nat.pow_mul, Nat.pow_mul]
    rw [e1, e2, e3]
    unfold asSigned
    rw [e5, e4]
    have hM : 0 < 256 ^ m := Nat.pow_pos (by decide)
    generalize base256 (b :: rest) = v at *
    generalize 256 ^ rest.length = P at *
    generalize 256 ^ m = M at *
    obtain ⟨M', rfl⟩ : ∃ M', M = M' + 1 := ⟨M - 1, by omega⟩
    simp only [Nat.add_sub_cancel, Nat.add_mul, Nat.one_mul]
    have h1 : M' * (128 * P) ≤ M' * (256 * P) := Nat.mul_le_mul_left _ (by omega)
    generalize M' * (128 * P) = A at *
    generalize M' * (256 * P) = B at *
    rw [if_neg (by omega)]
    omega

/-! ## Bit strings -/

theorem shiftOr64_eq (bs : Bytes) (h : bs.length ≤ 8) : shiftOr64 bs = base256 bs := by
  have key : ∀ (bs : Bytes) (u k : Nat), u < 256 ^ k → k + bs.length ≤ 8 →
      bs.foldl (fun u b => (u * 256) % 18446744073709551616 + b.toNat) u =
        u * 256 ^ bs.length + base256 bs := by
    intro bs
    induction bs with
    | nil => intro u k _ _; simp [base256]
    | cons b bs ih =>
      intro u k hu hk
      have hb := b.toNat_lt
      simp only [List.length_cons] at hk
      have h1 : u * 256 + b.toNat < 256 ^ (k + 1) := by rw [Nat.pow_succ]; omega
      have h2 : 256 ^ (k + 1) ≤ 256 ^ 8 := Nat.pow_le_pow_right (by decide) (by omega)
      have h4 : u * 256 < 18446744073709551616 :=
        Nat.lt_of_le_of_lt (Nat.le_add_right _ _) (Nat.lt_of_lt_of_le h1 h2)
      have h3 : (u * 256) % 18446744073709551616 = u * 256 := Nat.mod_eq_of_lt h4
      simp only [List.foldl_cons]
      rw [h3, ih _ (k + 1) h1 (by omega), base256, List.length_cons, Nat.pow_succ, Nat.add_mul,
        Nat.mul_assoc, Nat.mul_comm 256]
      omega
  have := key bs 0 0 (by decide) (by omega)
  simpa [shiftOr64] using this

theorem bitsOf_append (a b : Bytes) : bitsOf (a ++ b) = bitsOf a ++ bitsOf b := by
  simp [bitsOf]

theorem bitsOf_take (bs : Bytes) (n : Nat) (hn : n ≤ bs.length) :
    bitsOf (bs.take n) = (bitsOf bs).take (8 * n) := by
  conv => rhs; rw [← List.take_append_drop n bs, bitsOf_append]
  have : (bitsOf (bs.take n)).length = 8 * n := by rw [bitsOf_length]; simp; omega
  rw [← this, List.take_left]

theorem bitsOf_getElem? (bs : Bytes) (n : Nat) :
    (bitsOf bs)[n]? = (bs[n / 8]?).map fun b => b.toNat.testBit (7 - n % 8) := by
  induction bs generalizing n with
  | nil => simp [bitsOf]
  | cons b bs ih =>
    have h : bitsOf (b :: bs) = bitsOfByte b ++ bitsOf bs := rfl
    rw [h]
    by_cases hn : n < 8
    · rw [List.getElem?_append_left (by rw [bitsOfByte_length]; exact hn)]
      have : n / 8 = 0 := by omega
      rw [this]
      have hcase : n = 0 ∨ n = 1 ∨ n = 2 ∨ n = 3 ∨ n = 4 ∨ n = 5 ∨ n = 6 ∨ n = 7 := by omega
      rcases hcase with rfl | rfl | rfl | rfl | rfl | rfl | rfl | rfl <;> rfl
    · rw [List.getElem?_append_right (by rw [bitsOfByte_length]; omega), bitsOfByte_length, ih]
      have h1 : n / 8 = (n - 8) / 8 + 1 := by omega
      have h2 : n % 8 = (n - 8) % 8 := by omega
      rw [h1, h2]
      simp

end Verif
