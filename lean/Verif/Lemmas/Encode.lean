import Verif.Serialize
import Verif.Lemmas.Num
import Verif.Lemmas.Returned
/-!
# Serialization: numbers, headers, exactness
-/
namespace Verif
open Outcome Spec

/-! ## Numbers -/

theorem toBeBytes_length (n v : Nat) : (toBeBytes n v).length = n := by
  induction n with
  | zero => rfl
  | succ n ih => simp [toBeBytes, ih]

theorem base256_toBeBytes (n v : Nat) : base256 (toBeBytes n v) = v % 256 ^ n := by
  induction n with
  | zero => simp [toBeBytes, base256, Nat.mod_one]
  | succ n ih =>
    simp only [toBeBytes, base256, ih, toBeBytes_length]
    rw [Nat.mod_pow_succ]
    simp only [UInt8.toNat_ofNat']
    rw [Nat.mul_comm, Nat.add_comm]

theorem base256_skipZeroes (bs : Bytes) : base256 (skipZeroes bs) = base256 bs := by
  induction bs with
  | nil => rfl
  | cons b bs ih =>
    unfold skipZeroes at *
    rw [List.dropWhile_cons]
    split
    · rename_i h
      rw [ih]
      have : b = 0 := by simpa using h
      simp [base256, this]
    · rfl

theorem skipZeroes_length_lt (bs : Bytes) (n : Nat) :
    n < (skipZeroes bs).length ↔ 256 ^ n ≤ base256 bs := by
  induction bs with
  | nil =>
    have : 0 < 256 ^ n := Nat.pow_pos (by decide)
    simp only [skipZeroes, List.dropWhile_nil, base256, List.length_nil]; omega
  | cons b bs ih =>
    unfold skipZeroes at *
    rw [List.dropWhile_cons]
    split
    · rename_i h
      have : b = 0 := by simpa using h
      rw [ih]; simp [base256, this]
    · rename_i h
      have hb : b.toNat ≠ 0 := fun h' => h (by simpa using UInt8.toNat_inj.1 h')
      constructor
      · intro hn
        rw [base256]
        have h1 : 256 ^ n ≤ 256 ^ bs.length :=
          Nat.pow_le_pow_right (by decide) (by simp at hn; omega)
        have h2 : 1 * 256 ^ bs.length ≤ b.toNat * 256 ^ bs.length :=
          Nat.mul_le_mul_right _ (by omega)
        omega
      · intro hn
        have h1 := base256_lt (b :: bs)
        exact (Nat.pow_lt_pow_iff_right (by decide)).1 (Nat.lt_of_le_of_lt hn h1)

theorem base256_inj {a b : Bytes} (hl : a.length = b.length) (h : base256 a = base256 b) : a = b := by
  induction a generalizing b with
  | nil => cases b with
    | nil => rfl
    | cons _ _ => simp at hl
  | cons x xs ih =>
    cases b with
    | nil => simp at hl
    | cons y ys =>
      simp only [List.length_cons, Nat.add_right_cancel_iff] at hl
      simp only [base256, hl] at h
      have h1 := base256_lt xs
      have h2 := base256_lt ys
      rw [hl] at h1
      have hp : 0 < 256 ^ ys.length := Nat.pow_pos (by decide)
      have e1 : x.toNat = y.toNat := by
        have a1 : (x.toNat * 256 ^ ys.length + base256 xs) / 256 ^ ys.length = x.toNat := by
          rw [Nat.mul_comm, Nat.mul_add_div hp, Nat.div_eq_of_lt h1, Nat.add_zero]
        have a2 : (y.toNat * 256 ^ ys.length + base256 ys) / 256 ^ ys.length = y.toNat := by
          rw [Nat.mul_comm, Nat.mul_add_div hp, Nat.div_eq_of_lt h2, Nat.add_zero]
        rw [← a1, ← a2, h]
      have e2 : base256 xs = base256 ys := by rw [e1] at h; omega
      rw [UInt8.toNat_inj.1 e1, ih hl e2]

/-- `to_be_bytes` without the leading zeroes is the shortest octet string. -/
theorem minOctets_iff {v : Bytes} {n : Nat} (hn : n < 256 ^ 8) :
    MinOctets v n ↔ v = skipZeroes (toBeBytes 8 n) := by
  have hval : base256 (skipZeroes (toBeBytes 8 n)) = n := by
    rw [base256_skipZeroes, base256_toBeBytes, Nat.mod_eq_of_lt hn]
  have hmin : ∀ v', base256 v' = n → (skipZeroes (toBeBytes 8 n)).length ≤ v'.length := by
    intro v' hv'
    have h1 := base256_lt v'
    rw [hv'] at h1
    have h2 := skipZeroes_length_lt (toBeBytes 8 n) v'.length
    rw [base256_toBeBytes, Nat.mod_eq_of_lt hn] at h2
    omega
  constructor
  · rintro ⟨h1, h2⟩
    have := h2 _ hval
    have := hmin v h1
    exact base256_inj (by omega) (by rw [h1, hval])
  · rintro rfl
    exact ⟨hval, hmin⟩

/-! ## Length octets -/

theorem encodeLength_long {n : Nat} (h : ¬ n ≤ 127) (hn : n < 256 ^ 8) :
    1 ≤ (skipZeroes (toBeBytes 8 n)).length ∧ (skipZeroes (toBeBytes 8 n)).length ≤ 8 := by
  have h1 := skipZeroes_length_lt (toBeBytes 8 n) 0
  have h2 := skipZeroes_length_lt (toBeBytes 8 n) 8
  rw [base256_toBeBytes, Nat.mod_eq_of_lt hn] at h1 h2
  generalize 256 ^ 8 = B at *
  simp only [Nat.pow_zero] at h1
  omega

theorem encodeLength_definite (n : Nat) : encodeLength (.definite n) =
    if n ≤ 0x7f then [UInt8.ofNat n]
    else UInt8.ofNat (128 + (skipZeroes (toBeBytes 8 n)).length) :: skipZeroes (toBeBytes 8 n) := rfl

theorem lenOctets_encodeLength {n : Nat} (hn : n < 256 ^ 8) :
    LenOctets (encodeLength (.definite n)) (.definite n) := by
  rw [encodeLength_definite]
  split
  · rename_i h
    have := LenOctets.short (UInt8.ofNat n) (by simp only [UInt8.toNat_ofNat']; omega)
    simp only [UInt8.toNat_ofNat'] at this
    rwa [Nat.mod_eq_of_lt (by omega)] at this
  · rename_i h
    obtain ⟨h1, h2⟩ := encodeLength_long h hn
    have hval : base256 (skipZeroes (toBeBytes 8 n)) = n := by
      rw [base256_skipZeroes, base256_toBeBytes, Nat.mod_eq_of_lt hn]
    have hb : (UInt8.ofNat (128 + (skipZeroes (toBeBytes 8 n)).length)).toNat =
        128 + (skipZeroes (toBeBytes 8 n)).length := by
      simp only [UInt8.toNat_ofNat']; omega
    have := LenOctets.long (UInt8.ofNat (128 + (skipZeroes (toBeBytes 8 n)).length))
      (skipZeroes (toBeBytes 8 n)) (by omega) (by omega) (by omega)
    rwa [hval] at this

/-- The definite form: what the length octets are. -/
theorem lenOctets_cases {len : Bytes} {n : Nat} (h : LenOctets len (.definite n)) :
    (∃ b, len = [b] ∧ b.toNat = n ∧ n < 128) ∨
    (∃ b ds, len = b :: ds ∧ b.toNat = 128 + ds.length ∧ base256 ds = n ∧ 1 ≤ ds.length) := by
  cases h with
  | short b hb => exact .inl ⟨b, rfl, rfl, hb⟩
  | long b ds h1 h2 h3 => exact .inr ⟨b, ds, rfl, by omega, rfl, by omega⟩

theorem minLen_iff {len : Bytes} {n : Nat} (hn : n < 256 ^ 8) :
    MinLen len n ↔ len = encodeLength (.definite n) := by
  have hmin : ∀ len', LenOctets len' (.definite n) →
      (encodeLength (.definite n)).length ≤ len'.length := by
    intro len' h
    rcases lenOctets_cases h with ⟨b, rfl, rfl, hb⟩ | ⟨b, ds, rfl, hb, hv, hl⟩
    · rw [encodeLength_definite, if_pos (by omega)]; simp
    · rw [encodeLength_definite]
      split
      · simp
      · have h1 := base256_lt ds
        rw [hv] at h1
        have h2 := skipZeroes_length_lt (toBeBytes 8 n) ds.length
        rw [base256_toBeBytes, Nat.mod_eq_of_lt hn] at h2
        simp only [List.length_cons]
        omega
  constructor
  · rintro ⟨h1, h2⟩
    have h3 := h2 _ (lenOctets_encodeLength hn)
    have h4 := hmin _ h1
    have hlen : len.length = (encodeLength (.definite n)).length := by omega
    have h0 := lenOctets_encodeLength hn
    generalize encodeLength (.definite n) = e at *
    rcases lenOctets_cases h1 with ⟨b, rfl, e1, hb⟩ | ⟨b, ds, rfl, hb, hv, hl⟩ <;>
      rcases lenOctets_cases h0 with ⟨b', rfl, e1', hb'⟩ | ⟨b', ds', rfl, hb', hv', hl'⟩
    · rw [UInt8.toNat_inj.1 (e1.trans e1'.symm)]
    · simp at hlen; subst hlen; simp at hl'
    · simp at hlen; subst hlen; simp at hl
    · simp only [List.length_cons, Nat.add_right_cancel_iff] at hlen
      rw [base256_inj hlen (hv.trans hv'.symm), show b = b' from UInt8.toNat_inj.1 (by omega)]
  · rintro rfl
    exact ⟨lenOctets_encodeLength hn, hmin⟩

/-! ## Identifier octet -/

/-- The identifier octet written by `ber_encode_header`. -/
def identByte (h : Header) : UInt8 :=
  UInt8.ofNat (h.cls.toNat * 64 + (if h.constructed then 1 else 0) * 32 + h.tag)

theorem identByte_facts (h : Header) (ht : h.tag ≤ 30) :
    classOf (identByte h) = h.cls ∧ constructedBit (identByte h) = h.constructed ∧
      (identByte h).toNat % 32 = h.tag := by
  have key : ∀ t < 31, ∀ c : Bool, ∀ k : Fin 4,
      classOf (UInt8.ofNat (k.val * 64 + (if c then 1 else 0) * 32 + t)) =
        [Class.universal, .application, .contextSpecific, .priv][k.val] ∧
      constructedBit (UInt8.ofNat (k.val * 64 + (if c then 1 else 0) * 32 + t)) = c ∧
      (UInt8.ofNat (k.val * 64 + (if c then 1 else 0) * 32 + t)).toNat % 32 = t := by
    decide +kernel
  obtain ⟨cls, cons, t, l, r⟩ := h
  unfold identByte
  cases cls
  · exact key t (by simp at ht; omega) cons 0
  · exact key t (by simp at ht; omega) cons 1
  · exact key t (by simp at ht; omega) cons 2
  · exact key t (by simp at ht; omega) cons 3

theorem identOctet_inj : ∀ b b' : Fin 256, classOf (UInt8.ofNat b.val) = classOf (UInt8.ofNat b'.val) →
    constructedBit (UInt8.ofNat b.val) = constructedBit (UInt8.ofNat b'.val) →
    b.val % 32 = b'.val % 32 → b = b' := by
  have h1 : ∀ b : Fin 256, (classOf (UInt8.ofNat b.val)).toNat = b.val / 64 := by decide +kernel
  have h2 : ∀ b : Fin 256, constructedBit (UInt8.ofNat b.val) = decide (b.val / 32 % 2 = 1) := by
    decide +kernel
  intro b b' e1 e2 e3
  have e1 := congrArg Class.toNat e1
  rw [h1, h1] at e1
  rw [h2, h2] at e2
  have e2 : (b.val / 32 % 2 = 1) ↔ (b'.val / 32 % 2 = 1) := by simpa using e2
  ext
  omega

theorem identOctet_iff {b : UInt8} {h : Header} :
    IdentOctets [b] h.cls h.constructed h.tag ↔ h.tag ≤ 30 ∧ b = identByte h := by
  constructor
  · intro H
    generalize hid : [b] = id at H
    generalize hc : h.cls = cls at H
    generalize hk : h.constructed = k at H
    generalize ht : h.tag = t at H
    cases H with
    | low b' hb =>
      simp only [List.cons.injEq, and_true] at hid
      subst hid
      have : h.tag ≤ 30 := by omega
      refine ⟨by omega, ?_⟩
      obtain ⟨f1, f2, f3⟩ := identByte_facts h this
      have := identOctet_inj ⟨b.toNat, b.toNat_lt⟩ ⟨(identByte h).toNat, (identByte h).toNat_lt⟩
        (by simp [f1, hc]) (by simp [f2, hk]) (by simp [f3, ht])
      exact UInt8.toNat_inj.1 (congrArg Fin.val this)
    | high b' ms last _ _ _ =>
      have := congrArg List.length hid
      simp at this
  · rintro ⟨ht, rfl⟩
    obtain ⟨f1, f2, f3⟩ := identByte_facts h ht
    have := IdentOctets.low (identByte h) (by omega)
    rwa [f1, f2, f3] at this

theorem encodeHeader_ok {h : Header} {hb : Bytes} :
    encodeHeader h = .ok hb ↔ h.tag ≤ 30 ∧ hb = identByte h :: encodeLength h.length := by
  unfold encodeHeader
  split
  · rename_i ht; simp; omega
  · rename_i ht
    simp only [ok.injEq, identByte]
    constructor
    · rintro rfl; exact ⟨by omega, rfl⟩
    · rintro ⟨_, rfl⟩; rfl

/-- Written header octets form a header. -/
theorem berHeader_encode {h : Header} (ht : h.tag ≤ 30) (hl : ∀ n, h.length = .definite n → n < 2 ^ 64)
    (hi : h.length = .indefinite → h.constructed = true) :
    BerHeader (identByte h :: encodeLength h.length) { h with rawTag := some [identByte h] } := by
  refine ⟨⟨[identByte h], encodeLength h.length, h.tag, rfl, identOctet_iff.2 ⟨ht, rfl⟩, ?_,
    ?_, by simp, rfl⟩, hl, hi⟩
  · cases hll : h.length with
    | definite n => exact lenOctets_encodeLength (Nat.lt_of_lt_of_eq (hl n hll) (by decide))
    | indefinite => exact .indefinite
  · have : (30 : Nat) < 2 ^ 32 := by decide
    exact (Nat.mod_eq_of_lt (Nat.lt_of_le_of_lt ht this)).symm

end Verif
