import Verif.Calendar
import Verif.Props.Text
/-!
# The date library of `Verif/Calendar.lean` reads and writes like asn1-rs
-/
namespace Verif
namespace Calendar
open Spec

theorem digit_toNat (n : Nat) : (digit n).toNat = 48 + n % 10 := by
  unfold digit
  rw [UInt8.toNat_ofNat', Nat.mod_eq_of_lt (by omega)]

theorem decodeDecimal_two (n : Nat) (h : n < 100) : decodeDecimal (digit (n / 10)) (digit n) = some n := by
  unfold decodeDecimal
  rw [digit_toNat, digit_toNat, if_pos (by omega)]
  congr 1
  omega

theorem decodeDecimal_some {a b : UInt8} {n : Nat} (h : decodeDecimal a b = some n) : [a, b] = two n ∧ n < 100 := by
  unfold decodeDecimal at h
  split at h
  next hd =>
    obtain rfl := Option.some.inj h
    refine ⟨?_, by omega⟩
    unfold two
    have e1 : a = digit (((a.toNat - 48) * 10 + (b.toNat - 48)) / 10) := by
      apply UInt8.toNat_inj.1; rw [digit_toNat]; omega
    have e2 : b = digit ((a.toNat - 48) * 10 + (b.toNat - 48)) := by
      apply UInt8.toNat_inj.1; rw [digit_toNat]; omega
    rw [← e1, ← e2]
  next => simp at h

theorem decimal_one {n : Nat} (h : n < 10) : decimal n = [digit n] := by
  rw [decimal_small h, digit, Nat.mod_eq_of_lt h]

theorem decimal_two {n : Nat} (h : 10 ≤ n) (h' : n < 100) : decimal n = two n := by
  rw [decimal_step h, decimal_one (by omega)]
  rfl

theorem decimal_three {n : Nat} (h : n < 1000) : decimal n = upToThree n := by
  unfold upToThree
  split
  next h1 => exact decimal_one h1
  next h1 =>
    split
    next h2 => exact decimal_two (by omega) h2
    next h2 =>
      rw [decimal_step (by omega), decimal_two (by omega) (by omega)]
      simp only [two, Nat.div_div_eq_div_mul]
      rfl

theorem padded_two {n : Nat} (h : n < 100) : padded 2 n = two n := by
  unfold padded
  by_cases h1 : n < 10
  · rw [decimal_one h1]
    unfold two
    rw [show digit (n / 10) = 0x30 by rw [Nat.div_eq_of_lt h1]; rfl]
    rfl
  · rw [decimal_two (by omega) h]
    rfl

theorem padded_four {n : Nat} (h : n < 10000) : padded 4 n = two (n / 100) ++ two n := by
  have e : ∀ m, m < 10 → digit m = UInt8.ofNat (0x30 + m) := fun m hm => by rw [digit, Nat.mod_eq_of_lt hm]
  unfold padded
  by_cases h1 : n < 1000
  · rw [decimal_three h1]
    unfold upToThree two
    have z1 : digit (n / 100 / 10) = 0x30 := by rw [show n / 100 / 10 = 0 by omega]; rfl
    split
    · have z2 : digit (n / 100) = 0x30 := by rw [show n / 100 = 0 by omega]; rfl
      have z3 : digit (n / 10) = 0x30 := by rw [show n / 10 = 0 by omega]; rfl
      rw [z1, z2, z3]; rfl
    · split
      · have z2 : digit (n / 100) = 0x30 := by rw [show n / 100 = 0 by omega]; rfl
        rw [z1, z2]; rfl
      · rw [z1]; rfl
  · rw [decimal_step (by omega), decimal_three (by omega)]
    unfold upToThree two
    rw [if_neg (by omega), if_neg (by omega)]
    simp only [Nat.div_div_eq_div_mul]
    rfl

theorem clockOf_date (c : Clock) : clockOf (date c) = some c := by
  obtain ⟨y, m, d, h, n, s, mi, zo⟩ := c
  cases mi <;> cases zo <;> rfl

theorem date_inj {c c' : Clock} (h : date c = date c') : c = c' := by
  have := congrArg clockOf h
  rw [clockOf_date, clockOf_date] at this
  exact Option.some.inj this

theorem displayClock_text (c : Clock) (h : c.InRange) (hm : ∀ v, c.milli = some v → v < 1000) : displayClock c = c.text := by
  unfold displayClock Clock.text Clock.longDigits
  rw [padded_four h.year, padded_two h.month, padded_two h.day, padded_two h.hour, padded_two h.minute, padded_two h.second]
  cases hc : c.milli with
  | none => rfl
  | some v =>
    simp only [fraction]
    rw [decimal_three (hm v hc)]
    rfl

theorem seconds_lt (r : Bytes) : (seconds r).1 < 100 := by
  unfold seconds
  split
  next a b _ =>
    cases h : decodeDecimal a b with
    | none => simp
    | some n => exact (decodeDecimal_some h).2
  next => simp

theorem zoneOf_form {r : Bytes} {w : TimeZone} (h : zoneOf r = some w) :
    r = [0x5a] ∨ ∃ sign w : Bytes, (sign = [0x2b] ∨ sign = [0x2d]) ∧ w.length = 4 ∧ r = sign ++ w := by
  unfold zoneOf at h
  split at h
  · exact .inl rfl
  · exact .inr ⟨[0x2b], _, .inl rfl, rfl, rfl⟩
  · exact .inr ⟨[0x2d], _, .inr rfl, rfl, rfl⟩
  · simp at h

theorem utcFromBytes_some {b : Bytes} {c : Clock} (h : utcFromBytes b = some c) :
    c.InRange ∧ c.year < 100 ∧ c.milli = none ∧ ∃ r, b = c.shortDigits ++ r ∧ UtcTail r := by
  unfold utcFromBytes at h
  split at h
  next y1 y2 m1 m2 d1 d2 h1 h2 n1 n2 rest =>
    simp only [Option.bind_eq_bind, Option.bind_eq_some_iff] at h
    obtain ⟨y, hy, m, hm, d, hd, hh, hhh, n, hn, h⟩ := h
    split at h
    next hv =>
      simp only [Option.pure_def, Option.bind_eq_some_iff, Option.some.injEq] at h
      obtain ⟨w, hw, rfl⟩ := h
      obtain ⟨ey, ly⟩ := decodeDecimal_some hy
      obtain ⟨em, lm⟩ := decodeDecimal_some hm
      obtain ⟨ed, ld⟩ := decodeDecimal_some hd
      obtain ⟨eh, lh⟩ := decodeDecimal_some hhh
      obtain ⟨en, ln⟩ := decodeDecimal_some hn
      refine ⟨⟨by simp only; omega, lm, ld, lh, ln, seconds_lt _⟩, ly, rfl, rest, ?_, ?_⟩
      · simp only [Clock.shortDigits]
        rw [← ey, ← em, ← ed, ← eh, ← en]
        rfl
      · have hz := zoneOf_form hw
        unfold seconds at hz
        split at hz
        · exact ⟨[_, _], _, rfl, .inr rfl, .inr hz⟩
        · exact ⟨[], _, rfl, .inl rfl, .inr hz⟩
    next => simp at h
  next => simp at h

theorem generalizedFromBytes_some {b : Bytes} {c : Clock} (h : generalizedFromBytes b = some c) :
    c.InRange ∧ valid c.month c.day c.hour c.minute c.second = true := by
  unfold generalizedFromBytes at h
  split at h
  next y1 y2 y3 y4 m1 m2 d1 d2 h1 h2 n1 n2 rest =>
    simp only [Option.bind_eq_bind, Option.bind_eq_some_iff] at h
    obtain ⟨y, hy, y', hy', m, hm, d, hd, hh, hhh, n, hn, h⟩ := h
    split at h
    next => simp at h
    next hne =>
    split at h
    next hv =>
      simp only [Option.pure_def, Option.bind_eq_some_iff, Option.some.injEq] at h
      obtain ⟨⟨mi, w⟩, hw, rfl⟩ := h
      obtain ⟨ey, ly⟩ := decodeDecimal_some hy
      obtain ⟨ey', ly'⟩ := decodeDecimal_some hy'
      obtain ⟨em, lm⟩ := decodeDecimal_some hm
      obtain ⟨ed, ld⟩ := decodeDecimal_some hd
      obtain ⟨eh, lh⟩ := decodeDecimal_some hhh
      obtain ⟨en, ln⟩ := decodeDecimal_some hn
      exact ⟨⟨by simp only; omega, lm, ld, lh, ln, seconds_lt _⟩, hv⟩
    next => simp at h
  next => simp at h

theorem fracZone_text (m : Option Nat) (hm : ∀ v, m = some v → v < 1000) :
    fracZone (fraction m ++ [0x5a]) = some (m.map scaled, .z) := by
  cases m with
  | none => rfl
  | some v =>
    have hv := hm v rfl
    have hd : ∀ n, 48 ≤ (digit n).toNat ∧ (digit n).toNat ≤ 57 := fun n => by rw [digit_toNat]; omega
    have hz : ¬ (48 ≤ (0x5a : UInt8).toNat ∧ (0x5a : UInt8).toNat ≤ 57) := by decide
    simp only [fraction, upToThree, two, List.cons_append, fracZone, true_or, if_true, Option.map_some, scaled]
    split
    · simp only [List.cons_append, List.nil_append, fracDigits, hd, if_neg hz, and_self, if_true]
      simp [milliOf, zoneOf, digit_toNat, Nat.mod_eq_of_lt, *]
    · split
      · simp only [List.cons_append, List.nil_append, fracDigits, hd, if_neg hz, and_self, if_true]
        simp [milliOf, zoneOf, digit_toNat]
        omega
      · simp only [List.cons_append, List.nil_append, fracDigits, hd, if_neg hz, and_self, if_true]
        simp [milliOf, zoneOf, digit_toNat]
        omega

theorem generalizedFromBytes_text (c : Clock) (h : c.InRange) (hv : valid c.month c.day c.hour c.minute c.second = true)
    (hm : ∀ v, c.milli = some v → v < 1000) : generalizedFromBytes c.text = some c.reread := by
  obtain ⟨y, m, d, hh, n, s, mi, zo⟩ := c
  obtain ⟨h1, h2, h3, h4, h5, h6⟩ := h
  simp only at h1 h2 h3 h4 h5 h6 hv hm
  simp only [Clock.text, Clock.longDigits, two, List.cons_append, List.nil_append, generalizedFromBytes]
  rw [decodeDecimal_two (y / 100) (by omega), decodeDecimal_two m h2, decodeDecimal_two d h3, decodeDecimal_two hh h4,
    decodeDecimal_two n h5]
  have hy : decodeDecimal (digit (y / 10)) (digit y) = some (y % 100) := by
    rw [← decodeDecimal_two (y % 100) (by omega)]
    congr 1 <;> apply UInt8.toNat_inj.1 <;> rw [digit_toNat, digit_toNat] <;> omega
  rw [hy]
  simp [seconds, decodeDecimal_two s h6, hv, fracZone_text mi hm, Clock.reread]
  omega

theorem text_visible (c : Clock) : c.text.all isVisibleByte = true := by
  have hd : ∀ n, isVisibleByte (digit n) = true := fun n => by
    have := digit_toNat n
    simp only [isVisibleByte, Bool.and_eq_true, decide_eq_true_eq, UInt8.le_iff_toNat_le, this]
    constructor
    · show 32 ≤ _; omega
    · show _ ≤ 127; omega
  have h2 : ∀ n, (two n).all isVisibleByte = true := fun n => by simp [two, hd]
  have hf : (fraction c.milli).all isVisibleByte = true := by
    cases c.milli with
    | none => rfl
    | some v =>
      simp only [fraction, upToThree, List.all_cons]
      split
      · simp [hd]; decide
      · split <;> simp [hd, h2] <;> decide
  simp [Clock.text, Clock.longDigits, h2, hf]
  decide

theorem fromAny_ok {tag : Nat} {f : Bytes → Option Clock} {b : Bytes} {t : DateTime} (h : fromAny tag f b = .ok t) :
    ∃ c, f b = some c ∧ t = date c := by
  unfold fromAny at h
  split at h
  · split at h
    next c hc => exact ⟨c, hc, by simpa using h.symm⟩
    next => simp at h
  · simp at h

/-- The date library of `Verif/Calendar.lean` is one of those that the theorems of `Verif/Props/Times.lean` are about. -/
theorem dateLibrary (charset : StrKind → Bytes → Bool) : DateLibrary (deps charset) date where
  inj _ _ h := date_inj h
  display c hr hm := by
    simp only [deps, clockOf_date]
    exact displayClock_text c hr hm
  utc k b t h := by
    obtain ⟨c, hc, rfl⟩ := fromAny_ok h
    obtain ⟨h1, h2, h3, r, h4, h5⟩ := utcFromBytes_some hc
    exact ⟨c, r, rfl, h1, h2, h3, h4, h5⟩
  generalized k b t h := by
    obtain ⟨c, hc, rfl⟩ := fromAny_ok h
    exact ⟨c, rfl, (generalizedFromBytes_some hc).1⟩
  reads k b c h hm := by
    obtain ⟨c', hc, hcc⟩ := fromAny_ok h
    obtain rfl := date_inj hcc
    obtain ⟨h1, h2⟩ := generalizedFromBytes_some hc
    simp only [deps, fromAny, text_visible, if_true, generalizedFromBytes_text c h1 h2 hm]

end Calendar
end Verif
