import Verif.Lemmas.Num
/-!
# UTF-8, UTF-16 and alphabets
-/
namespace Verif
open Outcome Spec

theorem u8_ofNat_toNat (n : Nat) (h : n < 256) : (UInt8.ofNat n).toNat = n := by
  simp [Nat.mod_eq_of_lt h]

theorem u8_eq {a : UInt8} {n : Nat} (h : n = a.toNat) : UInt8.ofNat n = a := by
  subst h; simp

theorem validUtf8_enc (c : Nat) (hc : IsScalar c) (rest : Bytes) :
    validUtf8 (utf8Enc c ++ rest) = validUtf8 rest := by
  unfold IsScalar at hc
  unfold utf8Enc
  by_cases h1 : c < 0x80
  · have e := u8_ofNat_toNat c (by omega)
    simp only [h1, if_true, List.cons_append, List.nil_append]
    rw [validUtf8.eq_def]
    simp only [UInt8.lt_iff_toNat_lt, e]
    rw [if_pos (show c < (128 : UInt8).toNat from h1)]
  by_cases h2 : c < 0x800
  · have e1 := u8_ofNat_toNat (0xC0 + c / 64) (by omega)
    have e2 := u8_ofNat_toNat (0x80 + c % 64) (by omega)
    simp only [h1, h2, if_true, if_false, List.cons_append, List.nil_append]
    rw [validUtf8.eq_def]
    dsimp only
    simp only [UInt8.lt_iff_toNat_lt, UInt8.le_iff_toNat_le, e1, e2,
      show (128 : UInt8).toNat = 128 from rfl, show (0xC2 : UInt8).toNat = 0xC2 from rfl,
      show (0xE0 : UInt8).toNat = 0xE0 from rfl, show (0xC0 : UInt8).toNat = 0xC0 from rfl]
    rw [if_neg (by omega), if_neg (by omega), if_pos (by omega)]
    simp only [show 128 ≤ 0x80 + c % 64 by omega, show 0x80 + c % 64 < 0xC0 by omega, decide_true,
      Bool.true_and]
  by_cases h3 : c < 0x10000
  · have e1 := u8_ofNat_toNat (0xE0 + c / 4096) (by omega)
    have e2 := u8_ofNat_toNat (0x80 + c / 64 % 64) (by omega)
    have e3 := u8_ofNat_toNat (0x80 + c % 64) (by omega)
    simp only [h1, h2, h3, if_true, if_false, List.cons_append, List.nil_append]
    rw [validUtf8.eq_def]
    dsimp only
    have n1 : (UInt8.ofNat (0xE0 + c / 4096) != 0xE0 || decide (0xA0 ≤ UInt8.ofNat (0x80 + c / 64 % 64)))
        = true := by
      simp only [Bool.or_eq_true, bne_iff_ne, ne_eq, decide_eq_true_eq, UInt8.le_iff_toNat_le,
        ← UInt8.toNat_inj, e1, e2, show (0xE0 : UInt8).toNat = 0xE0 from rfl,
        show (0xA0 : UInt8).toNat = 0xA0 from rfl]
      omega
    have n2 : (UInt8.ofNat (0xE0 + c / 4096) != 0xED || decide (UInt8.ofNat (0x80 + c / 64 % 64) < 0xA0))
        = true := by
      simp only [Bool.or_eq_true, bne_iff_ne, ne_eq, decide_eq_true_eq, UInt8.lt_iff_toNat_lt,
        ← UInt8.toNat_inj, e1, e2, show (0xED : UInt8).toNat = 0xED from rfl,
        show (0xA0 : UInt8).toNat = 0xA0 from rfl]
      omega
    simp only [n1, n2]
    simp only [UInt8.lt_iff_toNat_lt, UInt8.le_iff_toNat_le, e1, e2, e3,
      show (128 : UInt8).toNat = 128 from rfl, show (0xC2 : UInt8).toNat = 0xC2 from rfl,
      show (0xE0 : UInt8).toNat = 0xE0 from rfl, show (0xC0 : UInt8).toNat = 0xC0 from rfl,
      show (0xF0 : UInt8).toNat = 0xF0 from rfl]
    rw [if_neg (by omega), if_neg (by omega), if_neg (by omega), if_pos (by omega)]
    simp only [show 128 ≤ 0x80 + c % 64 by omega, show 0x80 + c % 64 < 0xC0 by omega,
      show 128 ≤ 0x80 + c / 64 % 64 by omega, show 0x80 + c / 64 % 64 < 0xC0 by omega, decide_true,
      Bool.true_and]
  · have e1 := u8_ofNat_toNat (0xF0 + c / 262144) (by omega)
    have e2 := u8_ofNat_toNat (0x80 + c / 4096 % 64) (by omega)
    have e3 := u8_ofNat_toNat (0x80 + c / 64 % 64) (by omega)
    have e4 := u8_ofNat_toNat (0x80 + c % 64) (by omega)
    simp only [h1, h2, h3, if_false, List.cons_append, List.nil_append]
    rw [validUtf8.eq_def]
    dsimp only
    have n1 : (UInt8.ofNat (0xF0 + c / 262144) != 0xF0 ||
        decide (0x90 ≤ UInt8.ofNat (0x80 + c / 4096 % 64))) = true := by
      simp only [Bool.or_eq_true, bne_iff_ne, ne_eq, decide_eq_true_eq, UInt8.le_iff_toNat_le,
        ← UInt8.toNat_inj, e1, e2, show (0xF0 : UInt8).toNat = 0xF0 from rfl,
        show (0x90 : UInt8).toNat = 0x90 from rfl]
      omega
    have n2 : (UInt8.ofNat (0xF0 + c / 262144) != 0xF4 ||
        decide (UInt8.ofNat (0x80 + c / 4096 % 64) < 0x90)) = true := by
      simp only [Bool.or_eq_true, bne_iff_ne, ne_eq, decide_eq_true_eq, UInt8.lt_iff_toNat_lt,
        ← UInt8.toNat_inj, e1, e2, show (0xF4 : UInt8).toNat = 0xF4 from rfl,
        show (0x90 : UInt8).toNat = 0x90 from rfl]
      omega
    simp only [n1, n2]
    simp only [UInt8.lt_iff_toNat_lt, UInt8.le_iff_toNat_le, e1, e2, e3, e4,
      show (128 : UInt8).toNat = 128 from rfl, show (0xC2 : UInt8).toNat = 0xC2 from rfl,
      show (0xE0 : UInt8).toNat = 0xE0 from rfl, show (0xC0 : UInt8).toNat = 0xC0 from rfl,
      show (0xF0 : UInt8).toNat = 0xF0 from rfl, show (0xF5 : UInt8).toNat = 0xF5 from rfl]
    rw [if_neg (by omega), if_neg (by omega), if_neg (by omega), if_neg (by omega),
      if_pos (by omega)]
    simp only [show 128 ≤ 0x80 + c % 64 by omega, show 0x80 + c % 64 < 0xC0 by omega,
      show 128 ≤ 0x80 + c / 64 % 64 by omega, show 0x80 + c / 64 % 64 < 0xC0 by omega,
      show 128 ≤ 0x80 + c / 4096 % 64 by omega, show 0x80 + c / 4096 % 64 < 0xC0 by omega,
      decide_true, Bool.true_and]

theorem isUtf8_cons {c : Nat} {rest : Bytes} (hc : IsScalar c) (h : IsUtf8 rest) {bs : Bytes}
    (e : bs = utf8Enc c ++ rest) : IsUtf8 bs := by
  obtain ⟨cs, h1, rfl⟩ := h
  refine ⟨c :: cs, ?_, by simpa using e⟩
  intro x hx
  rcases List.mem_cons.1 hx with rfl | hx
  · exact hc
  · exact h1 x hx

theorem validUtf8_sound {bs : Bytes} (h : validUtf8 bs = true) : IsUtf8 bs := by
  induction bs using validUtf8.induct with
  | case1 => exact ⟨[], by simp, rfl⟩
  | case2 a rest h1 ih =>
    have h1' : a.toNat < 128 := by simpa [UInt8.lt_iff_toNat_lt] using h1
    rw [validUtf8.eq_def] at h; dsimp only at h; rw [if_pos h1] at h
    refine isUtf8_cons (h := ih h) (c := a.toNat) (.inl (by omega)) ?_
    rw [utf8Enc, if_pos h1']; simp
  | case3 a rest h1 h2 => rw [validUtf8.eq_def] at h; dsimp only at h; rw [if_neg h1, if_pos h2] at h; simp at h
  | case4 a h1 h2 h3 b rest ih =>
    rw [validUtf8.eq_def] at h; dsimp only at h; rw [if_neg h1, if_neg h2, if_pos h3] at h
    simp only [Bool.and_eq_true, decide_eq_true_eq] at h
    obtain ⟨⟨g1, g2⟩, g3⟩ := h
    simp only [UInt8.lt_iff_toNat_lt, UInt8.le_iff_toNat_le,
      show (128 : UInt8).toNat = 128 from rfl, show (0xC2 : UInt8).toNat = 0xC2 from rfl,
      show (0xE0 : UInt8).toNat = 0xE0 from rfl, show (0xC0 : UInt8).toNat = 0xC0 from rfl]
      at h1 h2 h3 g1 g2
    refine isUtf8_cons (h := ih g3) (c := (a.toNat - 0xC0) * 64 + (b.toNat - 0x80)) (.inl (by omega)) ?_
    rw [utf8Enc, if_neg (by omega), if_pos (by omega),
      u8_eq (a := a) (by omega), u8_eq (a := b) (by omega)]
    rfl
  | case5 a rest h1 h2 h3 hr =>
    rw [validUtf8.eq_def] at h; dsimp only at h; rw [if_neg h1, if_neg h2, if_pos h3] at h
    cases rest with
    | nil => simp at h
    | cons b r => exact absurd rfl (hr b r)
  | case6 a h1 h2 h3 h4 b c rest ih =>
    rw [validUtf8.eq_def] at h; dsimp only at h; rw [if_neg h1, if_neg h2, if_neg h3, if_pos h4] at h
    simp only [Bool.and_eq_true, decide_eq_true_eq, Bool.or_eq_true, bne_iff_ne, ne_eq] at h
    obtain ⟨⟨⟨⟨⟨⟨g1, g2⟩, g3⟩, g4⟩, g5⟩, g6⟩, g7⟩ := h
    simp only [UInt8.lt_iff_toNat_lt, UInt8.le_iff_toNat_le, ← UInt8.toNat_inj,
      show (128 : UInt8).toNat = 128 from rfl, show (0xC2 : UInt8).toNat = 0xC2 from rfl,
      show (0xE0 : UInt8).toNat = 0xE0 from rfl, show (0xC0 : UInt8).toNat = 0xC0 from rfl,
      show (0xF0 : UInt8).toNat = 0xF0 from rfl, show (0xED : UInt8).toNat = 0xED from rfl,
      show (0xA0 : UInt8).toNat = 0xA0 from rfl]
      at h1 h2 h3 h4 g1 g2 g3 g4 g5 g6
    refine isUtf8_cons (h := ih g7) (c := (a.toNat - 0xE0) * 4096 + (b.toNat - 0x80) * 64 + (c.toNat - 0x80))
      ?_ ?_
    · unfold IsScalar; omega
    rw [utf8Enc, if_neg (by omega), if_neg (by omega), if_pos (by omega),
      u8_eq (a := a) (by omega), u8_eq (a := b) (by omega), u8_eq (a := c) (by omega)]
    rfl
  | case7 a rest h1 h2 h3 h4 hr =>
    rw [validUtf8.eq_def] at h; dsimp only at h; rw [if_neg h1, if_neg h2, if_neg h3, if_pos h4] at h
    split at h
    · exact absurd rfl (hr _ _ _)
    · simp at h
  | case8 a h1 h2 h3 h4 h5 b c d rest ih =>
    rw [validUtf8.eq_def] at h; dsimp only at h; rw [if_neg h1, if_neg h2, if_neg h3, if_neg h4, if_pos h5] at h
    simp only [Bool.and_eq_true, decide_eq_true_eq, Bool.or_eq_true, bne_iff_ne, ne_eq] at h
    obtain ⟨⟨⟨⟨⟨⟨⟨⟨g1, g2⟩, g3⟩, g4⟩, g5⟩, g6⟩, g7⟩, g8⟩, g9⟩ := h
    simp only [UInt8.lt_iff_toNat_lt, UInt8.le_iff_toNat_le, ← UInt8.toNat_inj,
      show (128 : UInt8).toNat = 128 from rfl, show (0xC2 : UInt8).toNat = 0xC2 from rfl,
      show (0xE0 : UInt8).toNat = 0xE0 from rfl, show (0xC0 : UInt8).toNat = 0xC0 from rfl,
      show (0xF0 : UInt8).toNat = 0xF0 from rfl, show (0xF5 : UInt8).toNat = 0xF5 from rfl,
      show (0xF4 : UInt8).toNat = 0xF4 from rfl, show (0x90 : UInt8).toNat = 0x90 from rfl]
      at h1 h2 h3 h4 h5 g1 g2 g3 g4 g5 g6 g7 g8
    refine isUtf8_cons (h := ih g9) (c := (a.toNat - 0xF0) * 262144 + (b.toNat - 0x80) * 4096 +
      (c.toNat - 0x80) * 64 + (d.toNat - 0x80)) ?_ ?_
    · unfold IsScalar; omega
    rw [utf8Enc, if_neg (by omega), if_neg (by omega), if_neg (by omega),
      u8_eq (a := a) (by omega), u8_eq (a := b) (by omega), u8_eq (a := c) (by omega),
      u8_eq (a := d) (by omega)]
    rfl
  | case9 a rest h1 h2 h3 h4 h5 hr =>
    rw [validUtf8.eq_def] at h; dsimp only at h; rw [if_neg h1, if_neg h2, if_neg h3, if_neg h4, if_pos h5] at h
    split at h
    · exact absurd rfl (hr _ _ _ _)
    · simp at h
  | case10 a rest h1 h2 h3 h4 h5 =>
    rw [validUtf8.eq_def] at h; dsimp only at h; rw [if_neg h1, if_neg h2, if_neg h3, if_neg h4, if_neg h5] at h
    simp at h

/-- The byte automaton accepts exactly the encodings of sequences of scalar values. -/
theorem validUtf8_iff (bs : Bytes) : validUtf8 bs = true ↔ IsUtf8 bs := by
  refine ⟨validUtf8_sound, ?_⟩
  rintro ⟨cs, h, rfl⟩
  induction cs with
  | nil => rfl
  | cons c cs ih =>
    rw [List.flatMap_cons, validUtf8_enc c (h c (by simp))]
    exact ih fun x hx => h x (by simp [hx])

/-! ## UTF-16 -/

theorem utf16Units_enc (c : Nat) (hc : IsScalar c) (rest : Bytes) :
    validUtf16 (utf16Units (utf16Enc c ++ rest)) = validUtf16 (utf16Units rest) := by
  unfold IsScalar at hc
  unfold utf16Enc
  by_cases h : c < 0x10000
  · have e1 := u8_ofNat_toNat (c / 256) (by omega)
    have e2 := u8_ofNat_toNat (c % 256) (by omega)
    simp only [h, if_true, List.cons_append, List.nil_append, utf16Units, e1, e2]
    rw [show c / 256 * 256 + c % 256 = c by omega, validUtf16.eq_def]
    dsimp only
    rw [if_pos]
    simp only [Bool.or_eq_true, decide_eq_true_eq]
    omega
  · have e1 := u8_ofNat_toNat ((0xD800 + (c - 0x10000) / 1024) / 256) (by omega)
    have e2 := u8_ofNat_toNat ((0xD800 + (c - 0x10000) / 1024) % 256) (by omega)
    have e3 := u8_ofNat_toNat ((0xDC00 + (c - 0x10000) % 1024) / 256) (by omega)
    have e4 := u8_ofNat_toNat ((0xDC00 + (c - 0x10000) % 1024) % 256) (by omega)
    simp only [h, if_false, List.cons_append, List.nil_append, utf16Units, e1, e2, e3, e4]
    have f1 : (0xD800 + (c - 0x10000) / 1024) / 256 * 256 + (0xD800 + (c - 0x10000) / 1024) % 256 =
      0xD800 + (c - 0x10000) / 1024 := Nat.div_add_mod' _ _
    have f2 : (0xDC00 + (c - 0x10000) % 1024) / 256 * 256 + (0xDC00 + (c - 0x10000) % 1024) % 256 =
      0xDC00 + (c - 0x10000) % 1024 := Nat.div_add_mod' _ _
    rw [f1, f2]
    generalize ha : 0xD800 + (c - 0x10000) / 1024 = a
    generalize hb : 0xDC00 + (c - 0x10000) % 1024 = b
    rw [validUtf16.eq_def]
    dsimp only
    rw [if_neg (by simp only [Bool.or_eq_true, decide_eq_true_eq]; omega), if_neg (by omega)]
    simp only [show 0xDC00 ≤ b by omega, show b ≤ 0xDFFF by omega, decide_true, Bool.true_and]

theorem isUtf16_cons {c : Nat} {rest : Bytes} (hc : IsScalar c) (h : IsUtf16 rest) {bs : Bytes}
    (e : bs = utf16Enc c ++ rest) : IsUtf16 bs := by
  obtain ⟨cs, h1, rfl⟩ := h
  refine ⟨c :: cs, ?_, by simpa using e⟩
  intro x hx
  rcases List.mem_cons.1 hx with rfl | hx
  · exact hc
  · exact h1 x hx

theorem utf16_sound : ∀ (n : Nat) (bs : Bytes), bs.length ≤ n → bs.length % 2 = 0 →
    validUtf16 (utf16Units bs) = true → IsUtf16 bs := by
  intro n
  induction n with
  | zero =>
    intro bs hn _ _
    obtain rfl : bs = [] := List.length_eq_zero_iff.1 (by omega)
    exact ⟨[], by simp, rfl⟩
  | succ n ih =>
    intro bs hn heven h
    match bs, hn, heven, h with
    | [], _, _, _ => exact ⟨[], by simp, rfl⟩
    | [_], _, he, _ => simp at he
    | a :: b :: rest, hn, he, h =>
      have ha := a.toNat_lt
      have hb := b.toNat_lt
      simp only [utf16Units] at h
      rw [validUtf16.eq_def] at h
      dsimp only at h
      split at h
      · rename_i hu
        simp only [Bool.or_eq_true, decide_eq_true_eq] at hu
        refine isUtf16_cons (h := ih rest (by simp at hn ⊢; omega) (by simp at he ⊢; omega) h)
          (c := a.toNat * 256 + b.toNat) (by unfold IsScalar; omega) ?_
        rw [utf16Enc, if_pos (by omega), u8_eq (a := a) (by omega), u8_eq (a := b) (by omega)]
        rfl
      · rename_i hu
        simp only [Bool.or_eq_true, decide_eq_true_eq] at hu
        split at h
        · simp at h
        · rename_i hlo
          match rest, hn, he, h with
          | [], _, _, h => simp [utf16Units] at h
          | [_], _, he, _ => simp at he
          | c :: d :: rest, hn, he, h =>
            have hc := c.toNat_lt
            have hd := d.toNat_lt
            simp only [utf16Units, Bool.and_eq_true, decide_eq_true_eq] at h
            obtain ⟨⟨g1, g2⟩, g3⟩ := h
            refine isUtf16_cons (h := ih rest (by simp at hn ⊢; omega) (by simp at he ⊢; omega) g3)
              (c := 0x10000 + (a.toNat * 256 + b.toNat - 0xD800) * 1024 +
                (c.toNat * 256 + d.toNat - 0xDC00)) (by unfold IsScalar; omega) ?_
            rw [utf16Enc, if_neg (by omega)]
            simp only
            rw [u8_eq (a := a) (by omega), u8_eq (a := b) (by omega), u8_eq (a := c) (by omega),
              u8_eq (a := d) (by omega)]
            rfl

theorem utf16Enc_even (c : Nat) : (utf16Enc c).length % 2 = 0 := by
  unfold utf16Enc; split <;> simp

/-- `String::from_utf16` on the big-endian units accepts exactly well-formed UTF-16. -/
theorem validUtf16_iff (bs : Bytes) :
    (bs.length % 2 = 0 ∧ validUtf16 (utf16Units bs) = true) ↔ IsUtf16 bs := by
  refine ⟨fun h => utf16_sound _ bs (Nat.le_refl _) h.1 h.2, ?_⟩
  rintro ⟨cs, h, rfl⟩
  induction cs with
  | nil => exact ⟨rfl, rfl⟩
  | cons c cs ih =>
    have ih := ih fun x hx => h x (by simp [hx])
    rw [List.flatMap_cons, utf16Units_enc c (h c (by simp))]
    refine ⟨?_, ih.2⟩
    have h1 := utf16Enc_even c
    have h2 := ih.1
    rw [List.length_append]
    omega

/-! ## Alphabets -/

theorem charset_alphabet {D : Deps} {k : StrKind} {bs : Bytes} {P : UInt8 → Prop}
    (hk : alphabet k = some P) : validCharset D k bs = true ↔ ∀ b ∈ bs, P b := by
  have t : ∀ (f : UInt8 → Bool), (∀ b, f b = true ↔ P b) → (bs.all f = true ↔ ∀ b ∈ bs, P b) := by
    intro f hf
    simp only [List.all_eq_true]
    exact ⟨fun h b hb => (hf b).1 (h b hb), fun h b hb => (hf b).2 (h b hb)⟩
  cases k <;> simp only [alphabet, Option.some.injEq, reduceCtorEq] at hk <;> subst hk
  · refine t isNumericByte fun b => ?_
    simp only [isNumericByte, Bool.or_eq_true, Bool.and_eq_true, decide_eq_true_eq,
      UInt8.le_iff_toNat_le, ← UInt8.toNat_inj]
    exact Iff.rfl
  · refine t isVisibleByte fun b => ?_
    simp only [isVisibleByte, Bool.and_eq_true, decide_eq_true_eq, UInt8.le_iff_toNat_le]
    exact Iff.rfl
  · refine t isPrintableByte fun b => ?_
    simp only [isPrintableByte, isAlnum, Bool.or_eq_true, Bool.and_eq_true, decide_eq_true_eq,
      UInt8.le_iff_toNat_le, ← UInt8.toNat_inj, List.mem_cons, List.not_mem_nil, or_false]
    simp only [show (0x30 : UInt8).toNat = 48 from rfl, show (0x39 : UInt8).toNat = 57 from rfl,
      show (0x41 : UInt8).toNat = 65 from rfl, show (0x5a : UInt8).toNat = 90 from rfl,
      show (0x61 : UInt8).toNat = 97 from rfl, show (0x7a : UInt8).toNat = 122 from rfl,
      show (0x20 : UInt8).toNat = 32 from rfl, show (0x27 : UInt8).toNat = 39 from rfl,
      show (0x28 : UInt8).toNat = 40 from rfl, show (0x29 : UInt8).toNat = 41 from rfl,
      show (0x2b : UInt8).toNat = 43 from rfl, show (0x2c : UInt8).toNat = 44 from rfl,
      show (0x2d : UInt8).toNat = 45 from rfl, show (0x2e : UInt8).toNat = 46 from rfl,
      show (0x2f : UInt8).toNat = 47 from rfl, show (0x3a : UInt8).toNat = 58 from rfl,
      show (0x3d : UInt8).toNat = 61 from rfl, show (0x3f : UInt8).toNat = 63 from rfl]
    omega
  · refine t isAsciiByte fun b => ?_
    simp only [isAsciiByte, decide_eq_true_eq, UInt8.lt_iff_toNat_lt]
    show b.toNat < 128 ↔ b.toNat ≤ 127
    omega

end Verif
