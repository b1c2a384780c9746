import Verif.Props.Api
import Verif.Props.Access
/-!
# Numeric accessors on every content: C79
-/
namespace Verif
open Outcome Spec

/-! ## C79 -/

namespace Spec

/-- The unsigned number a content stands for: the value of an INTEGER, the used bits of a BIT STRING of at
most 64 used bits, an ENUMERATED. -/
inductive Unsigned : Content → Nat → Prop
  | integer (s : Bytes) (v : Nat) : twosComplement s = v → Unsigned (.integer s) v
  | bitString (u : UInt8) (d : Bytes) (used unused : List Bool) : bitsOf d = used ++ unused →
      unused.length = u.toNat → used.length ≤ 64 → Unsigned (.bitString u d) (ofBits used)
  | enum (n : Nat) : Unsigned (.enum n) n

/-- The three variants `as_u64` and `as_u32` know. -/
def Numeric : Content → Prop
  | .integer _ | .bitString _ _ | .enum _ => True
  | _ => False

end Spec

/-- An ENUMERATED holds a `u64` in the code; the model uses `Nat`. -/
def Content.enumFits : Content → Prop
  | .enum n => n < 2 ^ 64
  | _ => True

theorem bitStringResult_ok_iff (u : UInt8) (d : Bytes) (v : Nat) :
    bitStringResult u d = .ok v ↔ Unsigned (.bitString u d) v := by
  unfold bitStringResult
  constructor
  · intro h
    split at h
    · simp at h
    · split at h
      · simp at h
      · next h1 h2 =>
        simp only [ok.injEq] at h
        rw [← h]
        exact .bitString u d _ ((bitsOf d).drop ((bitsOf d).length - u.toNat))
          (List.take_append_drop _ _).symm (by rw [List.length_drop]; omega)
          (by rw [List.length_take]; omega)
  · intro h
    cases h with
    | bitString _ _ used unused h1 h2 h3 =>
      rw [h1, List.length_append, if_neg (by omega), if_neg (by omega),
        show used.length + unused.length - u.toNat = used.length by omega, List.take_left]

/-- C79: `as_u64` answers exactly the number the content stands for, when it fits. -/
theorem C79_as_u64 (o : BerObject) (hf : o.content.enumFits) (v : Nat) :
    o.asU64 = .ok v ↔ Unsigned o.content v ∧ v < 2 ^ 64 := by
  cases hc : o.content with
  | integer s =>
    rw [((C17_as_u64_ok_iff o s hc v).1)]
    exact ⟨fun h => ⟨.integer s v h.1, h.2⟩, fun h => ⟨by cases h.1; assumption, h.2⟩⟩
  | bitString u d =>
    rw [C21_as_u64_bitstring o u d hc, ← bitStringResult_ok_iff]
    exact ⟨fun h => ⟨h, C21_fits u d v h⟩, fun h => h.1⟩
  | enum n =>
    unfold BerObject.asU64
    rw [hc] at hf ⊢
    simp only [Content.asU64, ok.injEq]
    exact ⟨fun h => h ▸ ⟨.enum n, hf⟩, fun h => by cases h.1; rfl⟩
  | _ =>
    unfold BerObject.asU64
    rw [hc]
    simp only [Content.asU64, reduceCtorEq, false_iff]
    rintro ⟨h, -⟩
    cases h

example := (C79_as_u64 (.fromObj (.integer [0x01, 0x00])) trivial 256).1 (by decide)

/-- C79: `as_u32` answers what `as_u64` answers when that is below 2^32: it never truncates. -/
theorem C79_as_u32 (o : BerObject) (v : Nat) :
    o.asU32 = .ok v ↔ o.asU64 = .ok v ∧ v < 2 ^ 32 := by
  cases hc : o.content with
  | integer s =>
    rw [((C17_as_u64_ok_iff o s hc v).1), ((C17_as_u64_ok_iff o s hc v).2)]
    exact ⟨fun h => ⟨⟨h.1, Nat.lt_trans h.2 (by decide)⟩, h.2⟩, fun h => ⟨h.1.1, h.2⟩⟩
  | bitString u d =>
    rw [C21_as_u64_bitstring o u d hc, C21_as_u32_bitstring o u d hc, bind_eq_ok]
    constructor
    · rintro ⟨x, h1, h2⟩
      split at h2
      · simp at h2
      · simp only [ok.injEq] at h2; subst h2; exact ⟨h1, by omega⟩
    · rintro ⟨h1, h2⟩
      exact ⟨v, h1, by rw [if_neg (by omega)]⟩
  | enum n =>
    unfold BerObject.asU32 BerObject.asU64
    rw [hc]
    simp only [Content.asU64, Content.asU32, ok.injEq]
    split <;> simp <;> omega
  | _ =>
    unfold BerObject.asU32 BerObject.asU64
    rw [hc]
    simp [Content.asU64, Content.asU32]

/-- C79: the errors of `as_u64`; there are no others, and no panic. -/
theorem C79_as_u64_errors (o : BerObject) :
    (o.asU64 = .err .berTypeError ↔ ¬ Numeric o.content) ∧
    (o.asU64 = .err .integerNegative ↔ ∃ s, o.content = .integer s ∧ twosComplement s < 0) ∧
    (o.asU64 = .err .invalidLength ↔
      ∃ u d, o.content = .bitString u d ∧ (bitsOf d).length < u.toNat) ∧
    (o.asU64 = .err .integerTooLarge ↔
      (∃ s, o.content = .integer s ∧ (2 ^ 64 : Nat) ≤ twosComplement s) ∨
      ∃ u d, o.content = .bitString u d ∧ u.toNat + 64 < (bitsOf d).length) ∧
    ((∃ v, o.asU64 = .ok v) ∨
      ∃ e ∈ [BerError.berTypeError, .integerNegative, .invalidLength, .integerTooLarge],
        o.asU64 = .err e) := by
  cases hc : o.content with
  | integer s =>
    rw [C17_as_u64_exact o s hc]
    unfold unsignedResult
    split
    · simp [Numeric]; omega
    · split <;> simp [Numeric] <;> omega
  | bitString u d =>
    have hx : ∀ P : UInt8 → Bytes → Prop,
        (∃ u' d', Content.bitString u d = .bitString u' d' ∧ P u' d') ↔ P u d := fun P =>
      ⟨fun ⟨_, _, h, hp⟩ => by cases h; exact hp, fun hp => ⟨u, d, rfl, hp⟩⟩
    rw [C21_as_u64_bitstring o u d hc, hx, hx]
    unfold bitStringResult
    split
    · simp [Numeric]; omega
    · split <;> simp [Numeric] <;> omega
  | enum n =>
    unfold BerObject.asU64
    rw [hc]
    simp [Content.asU64, Numeric]
  | _ =>
    unfold BerObject.asU64
    rw [hc]
    simp [Content.asU64, Numeric]

/-- C79: the errors of `as_u32`: those of `as_u64`, and `IntegerTooLarge` from 2^32 on. -/
theorem C79_as_u32_errors (o : BerObject) :
    (∀ e, o.asU64 = .err e → o.asU32 = .err e) ∧
    (∀ v, o.asU64 = .ok v → 2 ^ 32 ≤ v → o.asU32 = .err .integerTooLarge) := by
  cases hc : o.content with
  | integer s =>
    rw [C17_as_u64_exact o s hc, C17_as_u32_exact o s hc]
    unfold unsignedResult
    generalize twosComplement s = x
    split
    · simp
    · split
      · rw [if_pos (by omega)]; simp
      · constructor
        · simp
        · intro v hv hv'
          simp only [ok.injEq] at hv
          rw [if_pos (by omega)]
  | bitString u d =>
    rw [C21_as_u64_bitstring o u d hc, C21_as_u32_bitstring o u d hc]
    constructor
    · intro e h; rw [h]; rfl
    · intro v h hv; rw [h, ok_bind, if_pos hv]
  | enum n =>
    unfold BerObject.asU32 BerObject.asU64
    rw [hc]
    simp only [Content.asU64, Content.asU32, ok.injEq]
    refine ⟨by simp, fun v h hv => ?_⟩
    rw [if_pos (by omega)]
  | _ =>
    unfold BerObject.asU32 BerObject.asU64
    rw [hc]
    simp [Content.asU64, Content.asU32]

example := (C79_as_u32_errors (.fromObj (.enum 4294967296))).2 4294967296 (by decide) (by decide)

/-- C79: the signed accessors and the big-integer ones read INTEGER only, and say so with another error than
the unsigned ones. -/
theorem C79_integer_only (o : BerObject) (h : ∀ s, o.content ≠ .integer s) :
    o.asI64 = .err .berValueError ∧ o.asI32 = .err .berValueError ∧
    o.asBigint = .err .berValueError ∧ o.asBiguint = .err .berValueError := by
  unfold BerObject.asI64 BerObject.asI32 BerObject.asBigint BerObject.asBiguint
  cases hc : o.content <;> simp only [Content.asSignedInt, and_self]
  exact absurd hc (h _)

example := C79_integer_only (.fromObj (.enum 5)) (fun _ h => by cases h)

/-- C79: on INTEGER, the accessors agree wherever two of them answer, except that a number from 2^63 (2^31)
on is given by `as_i64` (`as_i32`) less 2^64 (2^32). -/
theorem C79_agree (o : BerObject) (s : Bytes) (hc : o.content = .integer s) :
    (∀ v : Nat, o.asU64 = .ok v →
      o.asBiguint = .ok v ∧ o.asBigint = .ok (v : Int) ∧
      o.asI64 = .ok (if v < 2 ^ 63 then (v : Int) else (v : Int) - (2 ^ 64 : Nat))) ∧
    (∀ v : Nat, o.asU32 = .ok v →
      o.asI32 = .ok (if v < 2 ^ 31 then (v : Int) else (v : Int) - (2 ^ 32 : Nat))) ∧
    (∀ v : Nat, o.asBiguint = .ok v → o.asBigint = .ok (v : Int)) ∧
    (∀ v : Int, v < 0 → (o.asI64 = .ok v ∨ o.asI32 = .ok v) → o.asU64 = .err .integerNegative →
      o.asBigint = .ok v) := by
  have h64 := fun v => (C17_as_u64_ok_iff o s hc v).1
  have h32 := fun v => (C17_as_u64_ok_iff o s hc v).2
  refine ⟨fun v h => ?_, fun v h => ?_, fun v h => ?_, fun v hv h hn => ?_⟩
  · obtain ⟨h1, h2⟩ := (h64 v).1 h
    rw [C20_as_biguint_exact o s hc, C20_as_bigint_exact o s hc, C18_as_i64_partial o s hc, h1,
      if_neg (by omega), if_neg (by omega), if_neg (by omega), Int.toNat_natCast]
    refine ⟨rfl, rfl, ?_⟩
    by_cases hx : v < 2 ^ 63
    · rw [if_pos hx, if_pos (by omega)]
    · rw [if_neg hx, if_neg (by omega)]
  · obtain ⟨h1, h2⟩ := (h32 v).1 h
    rw [C18_as_i32_partial o s hc, h1, if_neg (by omega), if_neg (by omega)]
    by_cases hx : v < 2 ^ 31
    · rw [if_pos hx, if_pos (by omega)]
    · rw [if_neg hx, if_neg (by omega)]
  · rw [C20_as_biguint_exact o s hc] at h
    split at h
    · simp at h
    · next hn =>
      simp only [ok.injEq] at h
      rw [C20_as_bigint_exact o s hc]
      congr 1
      omega
  · rw [C17_as_u64_exact o s hc] at hn
    unfold unsignedResult at hn
    split at hn
    · next hneg =>
      rw [C20_as_bigint_exact o s hc]
      rw [C18_as_i64_partial o s hc, C18_as_i32_partial o s hc, if_pos hneg, if_pos hneg] at h
      rcases h with h | h <;> split at h <;> simp at h <;> rw [h]
    · split at hn <;> simp at hn

/-- 2^63. -/
example := (C79_agree (.fromObj (.integer [0x00, 0x80, 0, 0, 0, 0, 0, 0, 0])) _ rfl).1 (2 ^ 63) (by decide +kernel)

/-- C79: every ENUMERATED in a returned object is read by both unsigned accessors, as the unsigned number
formed by its contents octets. -/
theorem C79_parsed_enum (D : Deps) (i rem : Bytes) (o o' : BerObject) (n : Nat)
    (hr : Returned D i rem o) (hn : Node o' o) (hc : o'.content = .enum n) :
    (∃ pre e post c, i = pre ++ e ++ post ++ rem ∧ Framed 50 e o'.header c ∧ n = base256 c) ∧
    o'.asU64 = .ok n ∧ o'.asU32 = .ok n ∧ o'.content.enumFits := by
  obtain ⟨pre, e, post, c, h1, h2, h3⟩ := returned_node hr hn
  have hL : n = base256 c ∧ n < 2 ^ 32 := by
    rcases h3 with h3 | ⟨hd, d, -, -, -, h3⟩
    · rw [hc] at h3; simp at h3
    · rw [hc] at h3
      cases h3 with
      | leaf _ _ _ _ hL => exact hL.2.2.2
  have h64 : o'.asU64 = .ok n := by unfold BerObject.asU64; rw [hc]; rfl
  exact ⟨⟨pre, e, post, c, h1, h2, hL.1⟩, h64, (C79_as_u32 o' n).2 ⟨h64, hL.2⟩, by
    rw [hc]; exact Nat.lt_trans hL.2 (by decide)⟩

example := C79_parsed_enum Tests.D0 [0x30, 0x04, 0x0a, 0x02, 0x01, 0x00, 9] [9] _
  (.mk ⟨.universal, false, 10, .definite 2, some [10]⟩ (.enum 256)) 256 (returned_ber rfl) (.seq _ _ _ (List.mem_singleton.2 rfl) .self) rfl

/-- The agreement does not hold for `as_i64` and `as_i32`: both answer, with different numbers. -/
theorem C79_i32_i64_disagree :
    (BerObject.fromIntSlice [0, 0xff, 0xff, 0xff, 0xff]).asI32 = .ok (-1) ∧
    (BerObject.fromIntSlice [0, 0xff, 0xff, 0xff, 0xff]).asI64 = .ok 4294967295 := by decide +kernel

example : Unsigned (.bitString 4 [0xab, 0xc0]) 0xabc :=
  (bitStringResult_ok_iff _ _ _).1 (by decide +kernel)
example : (BerObject.fromObj (.enum 4294967296)).asU32 = .err .integerTooLarge ∧
    (BerObject.fromObj (.enum 4294967296)).asU64 = .ok 4294967296 := by decide
example : (BerObject.fromObj (.boolean true)).asU32 = .err .berTypeError ∧
    (BerObject.fromObj (.boolean true)).asI32 = .err .berValueError := by decide

end Verif
