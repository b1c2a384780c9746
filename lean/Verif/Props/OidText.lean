import Verif.OidText
import Verif.Props.Oid
/-!
# Text of the OID macro: C73
-/
namespace Verif
open Outcome OidMacro Spec

namespace Spec

/-- Positional value of decimal digits. -/
def digitsValue : List Char → Nat
  | [] => 0
  | c :: cs => (c.toNat - '0'.toNat) * 10 ^ cs.length + digitsValue cs

/-- `t` writes the number `n`: an optional plus sign, then digits and underscores, a digit first. -/
def Numeral (t : List Char) (n : Nat) : Prop :=
  ∃ d body, (t = d :: body ∨ t = '+' :: d :: body) ∧ d.isDigit = true ∧
    (∀ c ∈ body, c.isDigit = true ∨ c = '_') ∧ n = digitsValue ((d :: body).filter Char.isDigit)

/-- The characters with the property White_Space (Unicode character database, PropList.txt). -/
def whiteSpace : List Nat :=
  [0x9, 0xa, 0xb, 0xc, 0xd, 0x20, 0x85, 0xa0, 0x1680, 0x2000, 0x2001, 0x2002, 0x2003, 0x2004, 0x2005, 0x2006, 0x2007,
    0x2008, 0x2009, 0x200a, 0x2028, 0x2029, 0x202f, 0x205f, 0x3000]

/-- A numeral with white space around it. -/
def Segment (s : List Char) (n : Nat) : Prop :=
  ∃ a t b, s = a ++ t ++ b ∧ (∀ c ∈ a, c.toNat ∈ whiteSpace) ∧ (∀ c ∈ b, c.toNat ∈ whiteSpace) ∧
    Numeral t n

/-- Segments separated by dots. -/
inductive Dotted : List Char → List Nat → Prop
  | one {s n} : Segment s n → Dotted s [n]
  | cons {s n t ns} : Segment s n → Dotted t ns → Dotted (s ++ '.' :: t) (n :: ns)

/-- Value of a lower case hexadecimal digit. -/
def hexValue (c : Char) : Option Nat :=
  if '0' ≤ c ∧ c ≤ '9' then some (c.toNat - '0'.toNat)
  else if 'a' ≤ c ∧ c ≤ 'f' then some (c.toNat - 'a'.toNat + 10) else none

/-- Elements of an array expression: `0xhh, ` for each octet. -/
inductive HexItems : List Char → Bytes → Prop
  | nil : HexItems [] []
  | cons {hi lo x y b t bs} : hexValue hi = some x → hexValue lo = some y → b = UInt8.ofNat (16 * x + y) →
      HexItems t bs → HexItems ('0' :: 'x' :: hi :: lo :: ',' :: ' ' :: t) (b :: bs)

/-- The text of an array expression with these octets. -/
def ArrayExpr (t : List Char) (bs : Bytes) : Prop := ∃ u, t = '[' :: u ++ [']'] ∧ HexItems u bs

end Spec

/-! ## Lemmas -/

theorem parseDigits_eq (acc : Nat) (s : List Char) (h : ∀ c ∈ s, c.isDigit = true ∨ c = '_') :
    parseDigits acc s = some (acc * 10 ^ (s.filter Char.isDigit).length +
      digitsValue (s.filter Char.isDigit)) := by
  induction s generalizing acc with
  | nil => simp [parseDigits, digitsValue]
  | cons c cs ih =>
    have ih := fun acc => ih acc (fun d hd => h d (List.mem_cons_of_mem _ hd))
    rcases h c (List.mem_cons_self ..) with hc | rfl
    · have h1 : c ≠ '_' := by rintro rfl; revert hc; decide
      simp only [parseDigits, if_neg h1, hc, if_true, ih, List.filter_cons, List.length_cons,
        digitsValue]
      congr 1
      rw [Nat.pow_succ, Nat.add_mul, Nat.mul_assoc, Nat.mul_comm 10, Nat.add_assoc]
      rfl
    · rw [show parseDigits acc ('_' :: cs) = parseDigits acc cs from by simp [parseDigits], ih]
      rw [List.filter_cons_of_neg (by decide)]

theorem parseDigits_some {acc n : Nat} {s : List Char} (h : parseDigits acc s = some n) :
    ∀ c ∈ s, c.isDigit = true ∨ c = '_' := by
  induction s generalizing acc with
  | nil => intro c hc; cases hc
  | cons c cs ih =>
    simp only [parseDigits] at h
    intro d hd
    split at h
    · rename_i h1
      rcases List.mem_cons.1 hd with rfl | hd
      · exact .inr h1
      · exact ih h d hd
    · split at h
      · rename_i h2
        rcases List.mem_cons.1 hd with rfl | hd
        · exact .inl h2
        · exact ih h d hd
      · cases h

theorem parseBody_iff (s : List Char) (n : Nat) :
    parseUnsigned s = some n ↔
      ∃ d body, s = d :: body ∧ d.isDigit = true ∧ (∀ c ∈ body, c.isDigit = true ∨ c = '_') ∧
        n = digitsValue ((d :: body).filter Char.isDigit) := by
  cases s with
  | nil => simp [parseUnsigned]
  | cons c cs =>
    simp only [parseUnsigned]
    constructor
    · intro h
      split at h
      · cases h
      · rename_i h1
        have h2 := parseDigits_some h
        rw [parseDigits_eq 0 _ h2] at h
        refine ⟨c, cs, rfl, (h2 c (List.mem_cons_self ..)).resolve_right h1,
          fun d hd => h2 d (List.mem_cons_of_mem _ hd), ?_⟩
        simpa using h.symm
    · rintro ⟨d, body, h, hd, hb, rfl⟩
      obtain ⟨rfl, rfl⟩ := List.cons.inj h
      have h1 : c ≠ '_' := by rintro rfl; revert hd; decide
      rw [if_neg h1, parseDigits_eq]
      · simp
      · intro x hx
        rcases List.mem_cons.1 hx with rfl | hx
        · exact .inl hd
        · exact hb x hx

theorem parseBigUint_iff (s : List Char) (n : Nat) : parseBigUint s = some n ↔ Numeral s n := by
  unfold parseBigUint Numeral
  rw [parseBody_iff]
  unfold stripPlus
  split
  · rename_i t
    constructor
    · rintro ⟨d, body, h, hd, -⟩
      rw [← (List.cons.inj h).1] at hd; exact absurd hd (by decide)
    · rintro ⟨d, body, h | h, hd, -⟩
      · rw [← (List.cons.inj h).1] at hd; exact absurd hd (by decide)
      · rw [← (List.cons.inj (List.cons.inj h).2).1] at hd; exact absurd hd (by decide)
  · rename_i t _
    constructor
    · rintro ⟨d, body, rfl, h⟩; exact ⟨d, body, .inr rfl, h⟩
    · rintro ⟨d, body, h | h, hd, hr⟩
      · rw [← (List.cons.inj h).1] at hd; exact absurd hd (by decide)
      · exact ⟨d, body, (List.cons.inj h).2, hd, hr⟩
  · rename_i h1 h2
    constructor
    · rintro ⟨d, body, h, hr⟩; exact ⟨d, body, .inl h, hr⟩
    · rintro ⟨d, body, h | h, hd, hr⟩
      · exact ⟨d, body, h, hd, hr⟩
      · exact absurd h (h2 _)

theorem numeral_chars {t : List Char} {n : Nat} (h : Numeral t n) :
    t ≠ [] ∧ ∀ c ∈ t, c.isDigit = true ∨ c = '_' ∨ c = '+' := by
  obtain ⟨d, body, rfl | rfl, hd, hb, -⟩ := h
  all_goals
    refine ⟨by simp, fun c hc => ?_⟩
    simp only [List.mem_cons] at hc
  · rcases hc with rfl | hc
    · exact .inl hd
    · rcases hb c hc with h | h
      · exact .inl h
      · exact .inr (.inl h)
  · rcases hc with rfl | rfl | hc
    · exact .inr (.inr rfl)
    · exact .inl hd
    · rcases hb c hc with h | h
      · exact .inl h
      · exact .inr (.inl h)

theorem numeralChar {c : Char} (h : c.isDigit = true ∨ c = '_' ∨ c = '+') :
    isWhitespace c = false ∧ c ≠ '.' := by
  rcases h with h | rfl | rfl
  · have h : 48 ≤ c.toNat ∧ c.toNat ≤ 57 := by
      unfold Char.isDigit at h
      simp only [Bool.and_eq_true, decide_eq_true_eq] at h
      exact h
    constructor
    · have key : ∀ k < 10, isWhitespace (Char.ofNat (48 + k)) = false := by decide
      have := key (c.toNat - 48) (by omega)
      rwa [show 48 + (c.toNat - 48) = c.toNat from by omega, Char.ofNat_toNat] at this
    · rintro rfl; revert h; decide
  · decide
  · decide

theorem dropWhile_append_all {α : Type} {p : α → Bool} {a b : List α} (h : ∀ c ∈ a, p c = true) :
    (a ++ b).dropWhile p = b.dropWhile p := by
  induction a with
  | nil => rfl
  | cons x xs ih =>
    rw [List.cons_append, List.dropWhile_cons_of_pos (h x (List.mem_cons_self ..)),
      ih fun c hc => h c (List.mem_cons_of_mem _ hc)]

theorem dropWhile_self {α : Type} {p : α → Bool} {t b : List α} (h : ∀ c ∈ t, p c = false)
    (ht : t ≠ []) : (t ++ b).dropWhile p = t ++ b := by
  cases t with
  | nil => exact absurd rfl ht
  | cons x xs =>
    rw [List.cons_append, List.dropWhile_cons_of_neg]
    simp [h x (List.mem_cons_self ..)]

theorem dropWhile_split {α : Type} (p : α → Bool) (s : List α) :
    ∃ a, s = a ++ s.dropWhile p ∧ ∀ c ∈ a, p c = true := by
  induction s with
  | nil => exact ⟨[], rfl, by simp⟩
  | cons x xs ih =>
    cases hx : p x with
    | false => exact ⟨[], by simp [hx], by simp⟩
    | true =>
      obtain ⟨a, h1, h2⟩ := ih
      refine ⟨x :: a, ?_, ?_⟩
      · rw [List.dropWhile_cons_of_pos hx, List.cons_append, ← h1]
      · intro c hc
        rcases List.mem_cons.1 hc with rfl | hc
        · exact hx
        · exact h2 c hc

theorem isWhitespace_iff (c : Char) : isWhitespace c = true ↔ c.toNat ∈ whiteSpace := by
  simp only [isWhitespace, whiteSpace, Bool.or_eq_true, Bool.and_eq_true, decide_eq_true_eq, beq_iff_eq, List.mem_cons,
    List.not_mem_nil, or_false]
  omega

theorem trim_split (s : List Char) : ∃ a b, s = a ++ trim s ++ b ∧
    (∀ c ∈ a, isWhitespace c = true) ∧ ∀ c ∈ b, isWhitespace c = true := by
  obtain ⟨a, h1, h2⟩ := dropWhile_split isWhitespace s
  obtain ⟨b, h3, h4⟩ := dropWhile_split isWhitespace (s.dropWhile isWhitespace).reverse
  refine ⟨a, b.reverse, ?_, h2, fun c hc => h4 c (List.mem_reverse.1 hc)⟩
  have h5 := congrArg List.reverse h3
  rw [List.reverse_reverse, List.reverse_append] at h5
  unfold trim
  rw [List.append_assoc, ← h5, ← h1]

theorem segment_iff (s : List Char) (n : Nat) :
    parseBigUint (trim s) = some n ↔ Segment s n := by
  rw [parseBigUint_iff]
  unfold Segment
  simp only [← isWhitespace_iff]
  constructor
  · intro h
    obtain ⟨a, b, h1, h2, h3⟩ := trim_split s
    exact ⟨a, trim s, b, h1, h2, h3, h⟩
  · rintro ⟨a, t, b, rfl, ha, hb, h⟩
    obtain ⟨h1, h2⟩ := numeral_chars h
    have h3 : ∀ c ∈ t, isWhitespace c = false := fun c hc => (numeralChar (h2 c hc)).1
    have : trim (a ++ t ++ b) = t := by
      unfold trim
      rw [List.append_assoc, dropWhile_append_all ha, dropWhile_self h3 h1, List.reverse_append,
        dropWhile_append_all (fun c hc => hb c (List.mem_reverse.1 hc))]
      have := dropWhile_self (b := []) (p := isWhitespace) (t := t.reverse)
        (fun c hc => h3 c (List.mem_reverse.1 hc)) (by simpa using h1)
      rw [List.append_nil] at this
      rw [this, List.reverse_reverse]
    rw [this]; exact h

theorem segment_no_dot {s : List Char} {n : Nat} (h : Segment s n) : '.' ∉ s := by
  obtain ⟨a, t, b, rfl, ha, hb, h⟩ := h
  intro hm
  simp only [List.mem_append] at hm
  rcases hm with (hm | hm) | hm
  · exact absurd (ha _ hm) (by decide)
  · exact (numeralChar ((numeral_chars h).2 _ hm)).2 rfl
  · exact absurd (hb _ hm) (by decide)

theorem splitDot_no_dot {s : List Char} (h : '.' ∉ s) : splitDot s = [s] := by
  induction s with
  | nil => rfl
  | cons c cs ih =>
    simp only [List.mem_cons, not_or] at h
    rw [splitDot, if_neg (Ne.symm h.1), ih h.2]

theorem splitDot_append {s t : List Char} (h : '.' ∉ s) :
    splitDot (s ++ '.' :: t) = s :: splitDot t := by
  induction s with
  | nil => simp [splitDot]
  | cons c cs ih =>
    simp only [List.mem_cons, not_or] at h
    rw [List.cons_append, splitDot, if_neg (Ne.symm h.1), ih h.2]

theorem first_dot (s : List Char) : '.' ∉ s ∨ ∃ a b, s = a ++ '.' :: b ∧ '.' ∉ a := by
  induction s with
  | nil => exact .inl (by simp)
  | cons c cs ih =>
    by_cases hc : c = '.'
    · exact .inr ⟨[], cs, by rw [hc]; rfl, by simp⟩
    · rcases ih with h | ⟨a, b, rfl, h⟩
      · exact .inl (by simp [h, Ne.symm hc])
      · exact .inr ⟨c :: a, b, rfl, by simp [h, Ne.symm hc]⟩

theorem parseComponents_cons {s : List Char} {ss : List (List Char)} {ns : List Nat} :
    parseComponents (s :: ss) = .ok ns ↔
      ∃ n ms, ns = n :: ms ∧ Segment s n ∧ parseComponents ss = .ok ms := by
  simp only [parseComponents, ← segment_iff]
  cases parseBigUint (trim s) with
  | none => simp
  | some n =>
    simp only [bind_eq_ok, ok.injEq, Option.some.injEq]
    constructor
    · rintro ⟨ms, h, rfl⟩; exact ⟨n, ms, rfl, rfl, h⟩
    · rintro ⟨_, ms, rfl, rfl, h⟩; exact ⟨ms, h, rfl⟩

theorem parseComponents_iff (s : List Char) (ns : List Nat) :
    parseComponents (splitDot s) = .ok ns ↔ Dotted s ns := by
  constructor
  · intro h
    generalize hl : s.length = l
    induction l using Nat.strongRecOn generalizing s ns with
    | _ l ih =>
      rcases first_dot s with hd | ⟨a, b, rfl, hd⟩
      · rw [splitDot_no_dot hd, parseComponents_cons] at h
        obtain ⟨n, ms, rfl, h1, h2⟩ := h
        rw [← ok.inj h2]
        exact .one h1
      · rw [splitDot_append hd, parseComponents_cons] at h
        obtain ⟨n, ms, rfl, h1, h2⟩ := h
        exact .cons h1 (ih b.length (by rw [← hl]; simp only [List.length_append, List.length_cons]; omega) b ms h2 rfl)
  · intro h
    induction h with
    | one h => rw [splitDot_no_dot (segment_no_dot h), parseComponents_cons]; exact ⟨_, _, rfl, h, rfl⟩
    | cons h _ ih => rw [splitDot_append (segment_no_dot h), parseComponents_cons]; exact ⟨_, _, rfl, h, ih⟩

theorem hexValue_hexChar : ∀ n < 16, hexValue (hexChar n) = some n := by decide

theorem hexValue_lt {c : Char} {x : Nat} (h : hexValue c = some x) : x < 16 ∧ hexChar x = c := by
  unfold hexValue at h
  split at h
  · rename_i h1
    obtain ⟨h1, h2⟩ := h1
    have h1 : 48 ≤ c.toNat := h1
    have h2 : c.toNat ≤ 57 := h2
    have h : c.toNat - 48 = x := Option.some.inj h
    refine ⟨by omega, ?_⟩
    unfold hexChar
    rw [if_pos (by omega), show 48 + x = c.toNat from by omega, Char.ofNat_toNat]
  · split at h
    · rename_i h1
      obtain ⟨h1, h2⟩ := h1
      have h1 : 97 ≤ c.toNat := h1
      have h2 : c.toNat ≤ 102 := h2
      have h : c.toNat - 97 + 10 = x := Option.some.inj h
      refine ⟨by omega, ?_⟩
      unfold hexChar
      rw [if_neg (by omega), show 87 + x = c.toNat from by omega, Char.ofNat_toNat]
    · cases h

theorem hexItems_iff (t : List Char) (bs : Bytes) : HexItems t bs ↔ t = bs.flatMap byteText := by
  constructor
  · intro h
    induction h with
    | nil => rfl
    | @cons hi lo x y b t bs h1 h2 hb _ ih =>
      obtain ⟨hx, rfl⟩ := hexValue_lt h1
      obtain ⟨hy, rfl⟩ := hexValue_lt h2
      subst hb
      rw [List.flatMap_cons, ← ih]
      unfold byteText
      have : (UInt8.ofNat (16 * x + y)).toNat = 16 * x + y := by
        rw [UInt8.toNat_ofNat']; omega
      rw [this, show (16 * x + y) / 16 = x from by omega, show (16 * x + y) % 16 = y from by omega]
      rfl
  · rintro rfl
    induction bs with
    | nil => exact .nil
    | cons b bs ih =>
      have hb : b.toNat < 256 := b.toNat_lt
      refine .cons (hexValue_hexChar _ (by omega)) (hexValue_hexChar _ (by omega)) ?_ ih
      rw [Nat.div_add_mod, UInt8.ofNat_toNat]

theorem arrayExpr_iff (t : List Char) (bs : Bytes) : ArrayExpr t bs ↔ t = arrayText bs := by
  simp [ArrayExpr, hexItems_iff, arrayText]

/-- The prefix of a relative OID. -/
theorem dotted_not_rel {s t : List Char} {ns : List Nat} (h : Dotted s ns) :
    s ≠ 'r' :: 'e' :: 'l' :: ' ' :: t := by
  have key : ∀ {s u n}, Segment s n → s ++ u ≠ 'r' :: 'e' :: 'l' :: ' ' :: t := by
    rintro s u n ⟨a, x, b, rfl, ha, -, h⟩ he
    cases a with
    | cons c a =>
      have : c = 'r' := (List.cons.inj he).1
      have h2 := ha c (List.mem_cons_self ..)
      rw [this] at h2; revert h2; decide
    | nil =>
      cases x with
      | nil => exact (numeral_chars h).1 rfl
      | cons c x =>
        have hc : c = 'r' := (List.cons.inj he).1
        have h2 := (numeral_chars h).2 c (List.mem_cons_self ..)
        rw [hc] at h2; revert h2; decide
  cases h with
  | one h => have := key (u := []) h; rwa [List.append_nil] at this
  | cons h _ => exact key h

theorem encodeComponents_total (ns : List Nat) (r : Bool) :
    (∃ e, encodeComponents ns r = .ok e) ∨ encodeComponents ns r = .panic := by
  cases h : encodeComponents ns r with
  | ok e => exact .inl ⟨e, rfl⟩
  | err e => exact e.elim
  | panic => exact .inr rfl
  | diverge =>
    exfalso
    cases r with
    | true => obtain ⟨e, h', -⟩ := C57_relative ns; rw [h] at h'; cases h'
    | false =>
      match ns with
      | [] => cases h
      | [a] =>
        simp only [encodeComponents, Bool.false_eq_true, if_false] at h
        split at h <;> cases h
      | a :: b :: ns =>
        simp only [encodeComponents, Bool.false_eq_true, if_false] at h
        split at h
        · cases h
        · split at h
          · cases h
          · obtain ⟨e, h', -⟩ := encodeRest_ok ns [UInt8.ofNat (a * 40 + b)]
            rw [h] at h'; cases h'

theorem parseComponents_total (ss : List (List Char)) :
    (∃ e, parseComponents ss = .ok e) ∨ parseComponents ss = .panic := by
  induction ss with
  | nil => exact .inl ⟨_, rfl⟩
  | cons s ss ih =>
    simp only [parseComponents]
    split
    · exact .inr rfl
    · rcases ih with ⟨e, h⟩ | h
      · rw [h]; exact .inl ⟨_, rfl⟩
      · rw [h]; exact .inr rfl

/-! ## C73 -/

/-- C73: the macro accepts exactly dot-separated numerals, with an optional prefix `rel ` for relative
OIDs, whose components `encode_components` accepts; the expansion is the array expression of their
octets. -/
theorem C73_expansion (s out : List Char) :
    encodeOid s = .ok out ↔
      ∃ rel body ns enc, s = (if rel = true then ['r', 'e', 'l', ' '] else []) ++ body ∧
        Dotted body ns ∧ encodeComponents ns rel = .ok enc ∧ ArrayExpr out enc := by
  unfold encodeOid
  split
  · rename_i rem
    simp only [bind_eq_ok, ok.injEq, parseComponents_iff]
    constructor
    · rintro ⟨ns, h1, enc, h2, rfl⟩
      exact ⟨true, rem, ns, enc, rfl, h1, h2, (arrayExpr_iff _ _).2 rfl⟩
    · rintro ⟨rel, body, ns, enc, h0, h1, h2, h3⟩
      cases rel with
      | true =>
        have : rem = body := by simpa using h0
        subst this
        exact ⟨ns, h1, enc, h2, ((arrayExpr_iff _ _).1 h3).symm⟩
      | false => exact absurd h0.symm (dotted_not_rel h1)
  · rename_i hne
    simp only [bind_eq_ok, ok.injEq, parseComponents_iff]
    constructor
    · rintro ⟨ns, h1, enc, h2, rfl⟩
      exact ⟨false, s, ns, enc, rfl, h1, h2, (arrayExpr_iff _ _).2 rfl⟩
    · rintro ⟨rel, body, ns, enc, h0, h1, h2, h3⟩
      cases rel with
      | true => exact absurd h0 (hne _)
      | false =>
        have : s = body := by simpa using h0
        subst this
        exact ⟨ns, h1, enc, h2, ((arrayExpr_iff _ _).1 h3).symm⟩

/-- C73: the same, with the octets said without the macro. -/
theorem C73_exact (s out : List Char) :
    encodeOid s = .ok out ↔
      ∃ rel body ns enc, s = (if rel = true then ['r', 'e', 'l', ' '] else []) ++ body ∧
        Dotted body ns ∧ MacroOctets rel ns enc ∧ ArrayExpr out enc := by
  simp only [C73_expansion, C57_exact]

/-- C73: on any other argument the macro panics at compile time. -/
theorem C73_refused (s : List Char) : (∃ out, encodeOid s = .ok out) ∨ encodeOid s = .panic := by
  unfold encodeOid
  split <;> rename_i rem
  · rcases parseComponents_total (splitDot rem) with ⟨ns, h⟩ | h <;> rw [h]
    · rcases encodeComponents_total ns true with ⟨e, h⟩ | h <;> simp [h]
    · exact .inr rfl
  · rcases parseComponents_total (splitDot s) with ⟨ns, h⟩ | h <;> rw [h]
    · rcases encodeComponents_total ns false with ⟨e, h⟩ | h <;> simp [h]
    · exact .inr rfl

/-- `840. 2`. -/
theorem dotted_small : Dotted "840. 2".toList [840, 2] :=
  .cons (s := ['8', '4', '0']) (t := [' ', '2'])
    ⟨[], ['8', '4', '0'], [], rfl, by simp, by simp, '8', ['4', '0'], .inl rfl, rfl, by decide, rfl⟩
    (.one ⟨[' '], ['2'], [], rfl, by decide, by simp, '2', [], .inl rfl, rfl, by simp, rfl⟩)

/-- C73: every relative OID, written with any white space, expands to the octets of its
subidentifiers. -/
theorem C73_relative (body : List Char) (ns : List Nat) (h : Dotted body ns) :
    ∃ out bs, encodeOid ('r' :: 'e' :: 'l' :: ' ' :: body) = .ok out ∧ ArrayExpr out bs ∧ SubIds ns bs := by
  obtain ⟨bs, h1, h2, -⟩ := C57_relative ns
  refine ⟨arrayText bs, bs, (C73_expansion _ _).2 ⟨true, body, ns, bs, rfl, h, h1, ?_⟩, ?_, h2⟩ <;>
    exact (arrayExpr_iff _ _).2 rfl

example := C73_relative _ _ dotted_small

/-- C73: every absolute OID with first arc 0 to 2 and second arc below 40 expands to X.690 8.19.4. -/
theorem C73_absolute (body : List Char) (a b : Nat) (ns : List Nat) (h : Dotted body (a :: b :: ns))
    (ha : a ≤ 2) (hb : b < 40) :
    ∃ out bs, encodeOid body = .ok out ∧ ArrayExpr out (UInt8.ofNat (a * 40 + b) :: bs) ∧ SubIds ns bs := by
  obtain ⟨bs, h1, h2⟩ := encodeRest_ok ns [UInt8.ofNat (a * 40 + b)]
  have h3 : encodeComponents (a :: b :: ns) false = .ok (UInt8.ofNat (a * 40 + b) :: bs) := by
    simp only [encodeComponents, Bool.false_eq_true, if_false]
    rw [if_neg (by omega), if_neg (by omega), h1]
    rfl
  refine ⟨_, bs, (C73_expansion _ _).2 ⟨false, body, _, _, rfl, h, h3, (arrayExpr_iff _ _).2 rfl⟩,
    (arrayExpr_iff _ _).2 rfl, h2⟩

/-- `1. 2`. -/
example := C73_absolute "1. 2".toList 1 2 []
  (.cons (s := ['1']) (t := [' ', '2']) ⟨[], ['1'], [], rfl, by simp, by simp, '1', [], .inl rfl, rfl, by simp, rfl⟩
    (.one ⟨[' '], ['2'], [], rfl, by decide, by simp, '2', [], .inl rfl, rfl, by simp, rfl⟩)) (by decide) (by decide)

/-- C73: an array expression has one value, and one argument text has one list of components. -/
theorem C73_unambiguous :
    (∀ t bs bs', ArrayExpr t bs → ArrayExpr t bs' → bs = bs') ∧
      ∀ s ns ns', Dotted s ns → Dotted s ns' → ns = ns' := by
  constructor
  · rintro t bs bs' ⟨u, rfl, h⟩ ⟨u', h', h2⟩
    have : u = u' := by simpa using h'
    subst this
    clear h'
    induction h generalizing bs' with
    | nil => cases h2; rfl
    | cons h1 h2' h3 _ ih =>
      cases h2 with
      | cons k1 k2 k3 k4 =>
        rw [h1] at k1; rw [h2'] at k2
        cases k1; cases k2
        rw [h3, k3, ih _ k4]
  · intro s ns ns' h h'
    have h := (parseComponents_iff _ _).2 h
    rw [(parseComponents_iff _ _).2 h'] at h
    exact (ok.inj h).symm

example : encodeOid "1.2 . 840".toList = .ok "[0x2a, 0x86, 0x48, ]".toList := by decide +kernel
example : encodeOid "rel 840.+1_0".toList = .ok "[0x86, 0x48, 0x0a, ]".toList := by decide +kernel
example : encodeOid "1.2.".toList = .panic := by decide +kernel
example : Dotted "1. 2".toList [1, 2] :=
  .cons (s := ['1']) (t := [' ', '2']) ⟨[], ['1'], [], rfl, by simp, by simp, '1', [], .inl rfl, rfl, by simp, rfl⟩
    (.one ⟨[' '], ['2'], [], rfl, by decide, by simp, '2', [], .inl rfl, rfl, by simp, rfl⟩)

end Verif
