import Verif.Lemmas.Fail
import Verif.Lemmas.DerDenote
/-!
# Lemmas on input rejected by the DER functions
-/
namespace Verif
open Outcome Spec

theorem headerFromDer_incomplete {i : Bytes} {n : Nat} :
    headerFromDer i = .err (.incomplete (.size n)) ↔ HeaderCut false i (.need n) := by
  rw [← headerFromBer_incomplete]
  unfold headerFromDer headerFromBer
  cases h : parseIdentifier i with
  | ok r =>
    simp only [ok_bind]
    have hk : ∀ m, (if r.2.constructed then (.ok .indefinite : Outcome (NomErr BerError) Length)
        else .err (.error .constructExpected)) ≠ .err (.incomplete m) := by
      intro m; split <;> simp
    have hk' : ∀ m, (.err (.error (.derConstraintFailed .indefiniteLength)) :
        Outcome (NomErr BerError) Length) ≠ .err (.incomplete m) := by simp
    constructor
    · intro h
      rcases bind_eq_err.1 h with h | ⟨s, _, h⟩
      · rw [(parseLength_incomplete hk).2 ((parseLength_incomplete hk').1 h)]; rfl
      · simp at h
    · intro h
      rcases bind_eq_err.1 h with h | ⟨s, _, h⟩
      · rw [(parseLength_incomplete hk').2 ((parseLength_incomplete hk).1 h)]; rfl
      · simp at h
  | err e => simp only [err_bind]
  | panic => simp
  | diverge => simp

theorem headerFromDer_err {i : Bytes} {x : NomErr BerError} (h : headerFromDer i = .err x) :
    (∃ n, x = .incomplete (.size n)) ∨ ∃ e, x = .error e := by
  unfold headerFromDer at h
  rcases bind_eq_err.1 h with h | ⟨⟨i1, a⟩, h1, h2⟩
  · rcases parseIdentifier_err h with ⟨_, h⟩ | ⟨b, rest, rfl, h, h1, h2⟩
    · exact .inl ⟨_, h⟩
    · exact .inr ⟨_, h⟩
  · rcases bind_eq_err.1 h2 with h2 | ⟨r, _, h2⟩
    · rcases parseLength_err h2 with ⟨n, h⟩ | ⟨rest, _, h⟩ | ⟨h, _⟩
      · exact .inl ⟨n, h⟩
      · simp only [err.injEq] at h
        exact .inr ⟨_, h.symm⟩
      · exact .inr ⟨_, h⟩
    · simp at h2

theorem derIntegerCheck_err (c : Bytes) (e : BerError) : derIntegerCheck c = .err e ↔
    (c = [] ∧ e = .derConstraintFailed .integerEmpty) ∨
    ((bitsOf c).take 9 = List.replicate 9 false ∧ e = .derConstraintFailed .integerLeadingZeroes) := by
  rw [nine_zero_bits]
  match c with
  | [] =>
    simp only [derIntegerCheck, err.injEq, true_and, reduceCtorEq, false_and, exists_false, or_false]
    exact eq_comm
  | [a] => simp [derIntegerCheck]
  | a :: b :: rest =>
    simp only [derIntegerCheck, reduceCtorEq, false_and, false_or]
    constructor
    · intro h
      split at h
      · rename_i hab
        simp only [err.injEq] at h
        exact ⟨⟨b, rest, by rw [hab.1], hab.2⟩, h.symm⟩
      · simp at h
    · rintro ⟨⟨b', rest', h1, h2⟩, rfl⟩
      simp only [List.cons.injEq] at h1
      obtain ⟨rfl, rfl, _⟩ := h1
      rw [if_pos ⟨rfl, h2⟩]

/-- The checks before the BER conversion report the rule that is broken. -/
theorem derCheck_err {tag : Nat} {k : Bool} {c : Bytes} {e : BerError} (ht : tag ≠ 3) :
    derCheck c tag c.length k = .err e ↔ RuleFails tag k c e := by
  have hlast : ∀ e', (if c.length = 0 ∨ c[c.length - 1]? ≠ some 0x5a then
      Outcome.err (BerError.derConstraintFailed e') else Outcome.ok ()) = Outcome.err e ↔
      c.getLast? ≠ some 0x5a ∧ e = .derConstraintFailed e' := by
    intro t
    rw [List.getLast?_eq_getElem?]
    by_cases h0 : c.length = 0
    · rw [List.length_eq_zero_iff.1 h0]; simp [eq_comm]
    · by_cases h1 : c[c.length - 1]? = some 0x5a
      · simp [h0, h1]
      · simp [h0, h1, eq_comm]
  have t28 : uKind tag = .universalString ↔ tag = 28 :=
    ⟨fun h => by unfold uKind at h; split at h <;> simp at h; rfl, fun h => by rw [h]; rfl⟩
  have t30 : uKind tag = .bmpString ↔ tag = 30 :=
    ⟨fun h => by unfold uKind at h; split at h <;> simp at h; rfl, fun h => by rw [h]; rfl⟩
  rcases uKind_cases (tag := tag) with ⟨rfl, hk⟩ | ⟨rfl, hk⟩ | ⟨rfl, hk⟩ | ⟨rfl, hk⟩ | ⟨rfl, hk⟩ |
    ⟨n1, n2, n3, n4, n5, m1, m2, m3, m4, m5⟩
  · simp only [derCheck, hk]
    constructor
    · intro h
      split at h
      · rename_i hl; simp only [err.injEq] at h; subst h; exact .booleanLength rfl hl
      · rename_i hl
        match c, hl with
        | [b], _ =>
          simp only at h
          split at h
          · rename_i hb; simp only [err.injEq] at h; subst h; exact .booleanValue b rfl rfl hb.1 hb.2
          · simp at h
        | [], hl => simp at hl
        | _ :: _ :: _, hl => simp at hl
    · intro h
      cases h with
      | booleanLength _ hl => rw [if_pos hl]
      | booleanValue b _ hc h0 h1 => subst hc; simp [h0, h1]
      | stringConstructed hs =>
        exfalso
        rcases hs with ⟨s, hs⟩ | hs
        · cases s <;> simp [strTag] at hs
        · omega
      | _ => exfalso; omega
  · simp only [derCheck, hk, Nat.lt_irrefl, if_false, List.take_length, derIntegerCheck_err]
    constructor
    · rintro (⟨h, rfl⟩ | ⟨h, rfl⟩)
      · exact .integerEmpty rfl h
      · exact .integerZeroes rfl h
    · intro h
      cases h with
      | integerEmpty _ h => exact .inl ⟨h, rfl⟩
      | integerZeroes _ h => exact .inr ⟨h, rfl⟩
      | stringConstructed hs =>
        exfalso
        rcases hs with ⟨s, hs⟩ | hs
        · cases s <;> simp [strTag] at hs
        · omega
      | _ => exfalso; omega
  · exact absurd rfl ht
  · simp only [derCheck, hk, hlast]
    constructor
    · rintro ⟨h, rfl⟩; exact .time (.inl rfl) h
    · intro h
      cases h with
      | time _ h => exact ⟨h, rfl⟩
      | stringConstructed hs =>
        exfalso
        rcases hs with ⟨s, hs⟩ | hs
        · cases s <;> simp [strTag] at hs
        · omega
      | _ => exfalso; omega
  · simp only [derCheck, hk, hlast]
    constructor
    · rintro ⟨h, rfl⟩; exact .time (.inr rfl) h
    · intro h
      cases h with
      | time _ h => exact ⟨h, rfl⟩
      | stringConstructed hs =>
        exfalso
        rcases hs with ⟨s, hs⟩ | hs
        · cases s <;> simp [strTag] at hs
        · omega
      | _ => exfalso; omega
  · have hR : RuleFails tag k c e ↔ ((∃ s, tag = strTag s) ∨ tag = 28 ∨ tag = 30) ∧ k = true ∧
        e = .derConstraintFailed .constructed := by
      constructor
      · intro h
        cases h with
        | stringConstructed hs hk => exact ⟨hs, hk, rfl⟩
        | _ => exfalso; omega
      · rintro ⟨h1, h2, rfl⟩; exact .stringConstructed h1 h2
    rw [hR]
    unfold derCheck
    split
    · contradiction
    · contradiction
    · rename_i s hs
      have : (∃ s, tag = strTag s) ∨ tag = 28 ∨ tag = 30 := .inl ⟨s, uKind_str.1 hs⟩
      cases k <;> simp [this, eq_comm]
    · rename_i hs
      have : (∃ s, tag = strTag s) ∨ tag = 28 ∨ tag = 30 := .inr (.inr (t30.1 hs))
      cases k <;> simp [this, eq_comm]
    · rename_i hs
      have : (∃ s, tag = strTag s) ∨ tag = 28 ∨ tag = 30 := .inr (.inl (t28.1 hs))
      cases k <;> simp [this, eq_comm]
    · contradiction
    · contradiction
    · rename_i k1 k2 k3 k4 k5 k6 k7
      simp only [reduceCtorEq, false_iff]
      rintro ⟨⟨s, hs⟩ | hs | hs, _⟩
      · exact k3 s (uKind_str.2 hs)
      · exact k5 (t28.2 hs)
      · exact k4 (t30.2 hs)

theorem derCheck_returns {tag : Nat} {k : Bool} {c : Bytes} :
    (∃ e, derCheck c tag c.length k = .err e) ∨ derCheck c tag c.length k = .ok () := by
  unfold derCheck
  split
  · split
    · exact .inl ⟨_, rfl⟩
    · match c with
      | [] => rename_i h; simp at h
      | b :: r => dsimp only; split; exact .inl ⟨_, rfl⟩; exact .inr rfl
  · rw [if_neg (by omega), List.take_length]
    unfold derIntegerCheck
    split
    · exact .inl ⟨_, rfl⟩
    · split; exact .inl ⟨_, rfl⟩; exact .inr rfl
    · exact .inr rfl
  all_goals first
    | (split; exact .inl ⟨_, rfl⟩; exact .inr rfl)
    | exact .inr rfl

/-- Answers of the BIT STRING reader on the contents `c` followed by `rest`. -/
theorem derReadContentBitstring_err {D : Deps} {d : Nat} {c rest : Bytes} {x : NomErr BerError} :
    derReadContentBitstring (c ++ rest) c.length = .err x ↔
      (c = [] ∧ rest = [] ∧ x = .incomplete (.size 1)) ∨ ∃ e, x = .error e ∧ DerFails D d 3 false c rest e := by
  have nope : ∀ {c rest : Bytes} {e : BerError}, DerFails D d 3 false c rest e → RuleFails 3 false c e ∨
      (∃ u r, c = [] ∧ rest = u :: r ∧ ((7 < u.toNat ∧ e = .invalidValue 3) ∨ (u.toNat ≤ 7 ∧ e = .invalidLength))) := by
    intro c rest e h
    cases h with
    | rule _ _ _ h => exact .inl h
    | emptyBitsUnused u r _ _ h => exact .inr ⟨u, r, rfl, rfl, .inl ⟨h, rfl⟩⟩
    | emptyBits u r _ _ h => exact .inr ⟨u, r, rfl, rfl, .inr ⟨h, rfl⟩⟩
    | size _ _ h => exact absurd rfl h
    | contents _ _ _ h => exact absurd rfl h
  have ruleInv : ∀ {c : Bytes} {e : BerError}, RuleFails 3 false c e →
      ∃ u s, c = u :: s ∧ ((7 < u.toNat ∧ e = .invalidValue 3) ∨ (u.toNat ≤ 7 ∧
        (∃ b ∈ (bitsOf s).drop (8 * s.length - u.toNat), b = true) ∧
        e = .derConstraintFailed .unusedBitsNotZero)) := by
    intro c e h
    cases h with
    | bitStringUnused u s _ _ hc hu => exact ⟨u, s, hc, .inl ⟨hu, rfl⟩⟩
    | bitStringNotZero u s b _ _ hc hu hb hb' => exact ⟨u, s, hc, .inr ⟨hu, ⟨b, hb, hb'⟩, rfl⟩⟩
    | stringConstructed hs =>
      exfalso
      rcases hs with ⟨s, hs⟩ | hs
      · cases s <;> simp [strTag] at hs
      · omega
    | bitStringConstructed _ h => simp at h
    | _ => exfalso; omega
  cases c with
  | nil =>
    cases rest with
    | nil =>
      simp only [List.append_nil, derReadContentBitstring, err.injEq, true_and]
      constructor
      · rintro rfl; exact .inl rfl
      · rintro (h | ⟨e, rfl, h⟩)
        · exact h.symm
        · rcases nope h with h | ⟨_, _, _, h, _⟩
          · obtain ⟨_, _, h, _⟩ := ruleInv h; simp at h
          · simp at h
    | cons u r =>
      simp only [List.nil_append, derReadContentBitstring, List.length_nil, reduceCtorEq, false_and, and_false,
        false_or]
      constructor
      · intro h
        split at h
        · rename_i hu; simp only [err.injEq] at h; exact ⟨_, h.symm, .emptyBitsUnused u r rfl rfl hu⟩
        · rename_i hu
          simp only [if_true, err.injEq] at h
          exact ⟨_, h.symm, .emptyBits u r rfl rfl (by omega)⟩
      · rintro ⟨e, rfl, h⟩
        rcases nope h with h | ⟨_, _, _, h1, h2⟩
        · obtain ⟨_, _, h, _⟩ := ruleInv h; simp at h
        · simp only [List.cons.injEq] at h1
          obtain ⟨rfl, rfl⟩ := h1
          rcases h2 with ⟨h2, rfl⟩ | ⟨h2, rfl⟩
          · rw [if_pos h2]; rfl
          · rw [if_neg (by omega)]; rfl
  | cons u s =>
    simp only [List.cons_append, derReadContentBitstring, List.length_cons, reduceCtorEq, false_and, false_or]
    have hx : ∀ e, DerFails D d 3 false (u :: s) rest e ↔ (7 < u.toNat ∧ e = .invalidValue 3) ∨
        (u.toNat ≤ 7 ∧ (∃ b ∈ (bitsOf s).drop (8 * s.length - u.toNat), b = true) ∧
        e = .derConstraintFailed .unusedBitsNotZero) := by
      intro e
      constructor
      · intro h
        rcases nope h with h | ⟨_, _, h, _⟩
        · obtain ⟨u', s', h, h'⟩ := ruleInv h
          simp only [List.cons.injEq] at h
          obtain ⟨rfl, rfl⟩ := h
          exact h'
        · simp at h
      · rintro (⟨h, rfl⟩ | ⟨h, ⟨b, hb, hb'⟩, rfl⟩)
        · exact .rule _ _ _ (.bitStringUnused u s rfl rfl rfl h)
        · exact .rule _ _ _ (.bitStringNotZero u s b rfl rfl rfl h hb hb')
    simp only [hx]
    by_cases hu : 7 < u.toNat
    · simp only [hu, if_true, err.injEq, true_and]
      constructor
      · rintro rfl; exact ⟨_, rfl, .inl rfl⟩
      · rintro ⟨e, rfl, rfl | h⟩
        · rfl
        · omega
    · have hb := unused_bits_iff u s (by omega)
      have hb' : (∃ b ∈ (bitsOf s).drop (8 * s.length - u.toNat), b = true) ↔
          ¬ ∀ last, s.getLast? = some last → unusedBitsZero u.toNat last.toNat = true := by
        rw [← hb]
        constructor
        · rintro ⟨b, h1, rfl⟩ h2
          exact absurd (h2 _ h1) (by simp)
        · intro h
          apply Classical.byContradiction
          intro h2
          refine h fun b h3 => ?_
          cases b with
          | false => rfl
          | true => exact absurd ⟨true, h3, rfl⟩ h2
      rw [hb']
      simp only [hu, if_false, false_and, false_or, Nat.add_sub_cancel]
      rw [takeStreaming_append, ok_bind]
      dsimp only
      by_cases hs : s = []
      · subst hs
        simp
      · have hl : 0 < s.length := List.length_pos_iff.2 hs
        rw [if_pos (by omega), show s.length + 1 - 2 = s.length - 1 by omega, ← List.getLast?_eq_getElem?]
        cases hg : s.getLast? with
        | none => exact absurd (List.getLast?_eq_none_iff.1 hg) hs
        | some last =>
          simp only [Option.some.injEq, forall_eq']
          cases unusedBitsZero u.toNat last.toNat <;> simp
          constructor
          · rintro rfl; exact ⟨rfl, by omega⟩
          · rintro ⟨rfl, _⟩; rfl

/-- Answers of `der_read_element_content_as` when all contents octets are there. -/
theorem derReadElementContentAs_err {D : Deps} {d tag : Nat} {k : Bool} {c rest : Bytes} {x : NomErr BerError} :
    derReadElementContentAs D (c ++ rest) tag (.definite c.length) k d = .err x ↔
      (tag = 3 ∧ k = false ∧ c = [] ∧ rest = [] ∧ x = .incomplete (.size 1)) ∨
      ∃ e, x = .error e ∧ DerFails D d tag k c rest e := by
  rw [derReadElementContentAs_definite _ _ _ _ _ _ _ rfl]
  by_cases ht : tag = 3
  · subst ht
    rw [if_pos (show 3 = Tag.bitString from rfl)]
    cases k with
    | true =>
      simp only [if_true, err.injEq, Bool.true_eq_false, false_and, and_false, false_or]
      constructor
      · rintro rfl; exact ⟨_, rfl, .rule _ _ _ (.bitStringConstructed rfl rfl)⟩
      · rintro ⟨e, rfl, h⟩
        cases h with
        | rule _ _ _ h =>
          cases h with
          | bitStringConstructed => rfl
          | stringConstructed => rfl
          | bitStringUnused _ _ _ h => simp at h
          | bitStringNotZero _ _ _ _ h => simp at h
          | _ => exfalso; omega
        | emptyBitsUnused _ _ _ h => simp at h
        | emptyBits _ _ _ h => simp at h
        | size _ _ h => exact absurd rfl h
        | contents _ _ _ h => exact absurd rfl h
    | false =>
      simp only [Bool.false_eq_true, if_false, true_and]
      exact derReadContentBitstring_err
  · rw [if_neg (show ¬ tag = Tag.bitString from ht)]
    simp only [ht, false_and, false_or]
    have hmax : maxObjectSize < c.length ↔ 2 ^ 32 ≤ c.length := by unfold maxObjectSize; omega
    rcases derCheck_returns (tag := tag) (k := k) (c := c) with ⟨e, he⟩ | he
    · rw [he]
      simp only [liftRes, mapErr, err_bind, err.injEq]
      have hr := (derCheck_err ht).1 he
      constructor
      · rintro rfl; exact ⟨e, rfl, .rule _ _ _ hr⟩
      · rintro ⟨e', rfl, h⟩
        cases h with
        | rule _ _ _ h => have := (derCheck_err ht).2 h; rw [he] at this; simpa using this
        | emptyBitsUnused _ _ h => exact absurd h ht
        | emptyBits _ _ h => exact absurd h ht
        | size _ _ _ h => exact absurd hr (h _)
        | contents _ _ _ _ h => exact absurd hr (h _)
    · rw [he]
      have hr : ∀ e, ¬ RuleFails tag k c e := by
        intro e h
        rw [(derCheck_err ht).2 h] at he
        simp at he
      simp only [liftRes, mapErr_ok, ok_bind, hmax]
      by_cases hs : 2 ^ 32 ≤ c.length
      · rw [if_pos hs]
        constructor
        · intro h; simp only [err.injEq] at h; exact ⟨_, h.symm, .size _ _ ht hr hs⟩
        · rintro ⟨e', rfl, h⟩
          cases h with
          | rule _ _ _ h => exact absurd h (hr _)
          | emptyBitsUnused _ _ h => exact absurd h ht
          | emptyBits _ _ h => exact absurd h ht
          | size _ _ _ h => rfl
          | contents _ _ _ _ _ h => exact absurd hs (by omega)
      · rw [if_neg hs]
        constructor
        · intro h
          rcases bind_eq_err.1 h with h | ⟨o, _, h⟩
          · obtain ⟨e, h1, rfl⟩ := mapErr_eq_err.1 h
            exact ⟨e, rfl, .contents _ _ _ ht hr (by omega) ((objectFromAny_err D _ _ _ _).1 h1)⟩
          · simp at h
        · rintro ⟨e', rfl, h⟩
          cases h with
          | rule _ _ _ h => exact absurd h (hr _)
          | emptyBitsUnused _ _ h => exact absurd h ht
          | emptyBits _ _ h => exact absurd h ht
          | size _ _ _ _ h => exact absurd h hs
          | contents _ _ _ _ _ _ h => rw [(objectFromAny_err D _ _ _ _).2 h]; rfl

theorem derReadElementContentAs_short {D : Deps} {d tag l : Nat} {k : Bool} {i : Bytes} (h : i.length < l) :
    derReadElementContentAs D i tag (.definite l) k d = .err (.incomplete (.size l)) := by
  unfold derReadElementContentAs
  simp only [Length.definite?, liftRes_ok, ok_bind]
  rw [if_pos h, Needed.new, if_neg (by omega)]

theorem derUnknown_answer (d l : Nat) (i : Bytes) (h : Header) (hl : h.length = .definite l) :
    (d = 0 ∧ derUnknown i h d = .err (.error .berMaxDepth)) ∨
    (0 < d ∧ i.length < l ∧ derUnknown i h d = .err (.incomplete (.size (l - i.length)))) ∨
    (0 < d ∧ l ≤ i.length ∧ ∃ r, derUnknown i h d = .ok r) := by
  cases d with
  | zero => exact .inl ⟨rfl, rfl⟩
  | succ d =>
    by_cases hlt : i.length < l
    · refine .inr (.inl ⟨by omega, hlt, ?_⟩)
      unfold derUnknown getObjectContent
      simp only [skipContent, hl]
      rw [if_neg (by omega)]
      unfold takeStreaming
      rw [if_pos hlt]
      simp only [err_bind, Needed.new]
      rw [if_neg (by omega)]
    · refine .inr (.inr ⟨by omega, by omega, (i.drop l, .mk h (.unknown ⟨h, i.take l⟩)), ?_⟩)
      unfold derUnknown
      have := getObjectContent_definite (d := d) hl (i.take l) (i.drop l) (by simp; omega)
      rw [List.take_append_drop] at this
      rw [this]
      rfl

end Verif
