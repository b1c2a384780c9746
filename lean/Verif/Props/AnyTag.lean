import Verif.Props.Fail
/-!
# Property C91: all answers of `parse_ber_any_with_tag_r`
-/
namespace Verif
open Outcome Spec

theorem liftRes_eq_error {α : Type} {x : Res α} {e : BerError} :
    (liftRes x : Outcome (NomErr BerError) α) = .err (.error e) ↔ x = .err e := by
  cases x <;> simp [liftRes]

theorem assertTag_eq (h : Header) (t : Nat) :
    h.assertTag t = if h.tag = t then .ok () else .err (.unexpectedTag (some t) h.tag) := rfl

/-- C91: the input is accepted when it starts with an element of the wanted tag number, whatever its class, that
denotes an object within the depth limit; that object and the rest of the input are returned. -/
theorem C91_ok_iff (D : Deps) (t d : Nat) (i rem : Bytes) (o : BerObject) :
    parseBerAnyWithTagR D t d i = .ok (rem, o) ↔
      ∃ e c, i = e ++ rem ∧ Framed 50 e o.header c ∧ o.header.tag = t ∧ Denotes D d o.header c o.content := by
  have key : parseBerAnyWithTagR D t d i = .ok (rem, o) ↔
      parseBerRecursive D d i = .ok (rem, o) ∧ o.header.tag = t := by
    unfold parseBerAnyWithTagR parseBerRecursive parseBerAnyR
    split
    · simp
    · constructor
      · intro h
        obtain ⟨⟨r, a⟩, h1, h2⟩ := bind_eq_ok.1 h
        obtain ⟨_, h3, h4⟩ := bind_eq_ok.1 h2
        obtain ⟨o', h5, h6⟩ := bind_eq_ok.1 h4
        refine ⟨by rw [h1, ok_bind]; exact h4, ?_⟩
        rw [liftRes_eq_ok, assertTag_eq] at h3
        rw [liftRes_eq_ok] at h5
        simp only [ok.injEq, Prod.mk.injEq] at h6
        obtain ⟨rfl, rfl⟩ := h6
        have h7 := objectFromAny_header h5
        dsimp only at h7 h3
        rw [h7]
        split at h3
        · assumption
        · simp at h3
      · rintro ⟨h, ht⟩
        obtain ⟨⟨r, a⟩, h1, h4⟩ := bind_eq_ok.1 h
        obtain ⟨o', h5, h6⟩ := bind_eq_ok.1 h4
        rw [h1, ok_bind]
        rw [liftRes_eq_ok] at h5
        simp only [ok.injEq, Prod.mk.injEq] at h6
        obtain ⟨rfl, rfl⟩ := h6
        have h7 := objectFromAny_header h5
        dsimp only at h7 h5 ⊢
        rw [assertTag_eq, if_pos (by rw [← h7]; exact ht), h5]
        rfl
  rw [key, parseBerRecursive_iff]
  constructor
  · rintro ⟨⟨e, c, h1, h2, h3⟩, h4⟩; exact ⟨e, c, h1, h2, h4, h3⟩
  · rintro ⟨e, c, h1, h2, h4, h3⟩; exact ⟨⟨e, c, h1, h2, h3⟩, h4⟩

/-- C91: the rejected inputs and their errors.  A limit of 0 rejects everything; an element is delimited before its
tag number is compared, and the contents are read only if the numbers agree. -/
theorem C91_rejected_iff (D : Deps) (t d : Nat) (i : Bytes) (e : BerError) :
    parseBerAnyWithTagR D t d i = .err (.error e) ↔
      (d = 0 ∧ e = .berMaxDepth) ∨ (0 < d ∧ FrameFails 50 i e) ∨
      (0 < d ∧ ∃ x rest h c, i = x ++ rest ∧ Framed 50 x h c ∧
        ((h.tag ≠ t ∧ e = .unexpectedTag (some t) h.tag) ∨ (h.tag = t ∧ ContentFails D d h c e))) := by
  unfold parseBerAnyWithTagR
  split
  · rename_i hd
    subst hd
    simp [eq_comm]
  · rename_i hd
    constructor
    · intro h
      refine .inr ?_
      rcases bind_eq_err.1 h with h1 | ⟨⟨rest, h', c⟩, h1, h2⟩
      · exact .inl ⟨by omega, anyFromBer_error.1 h1⟩
      · obtain ⟨x, rfl, hF⟩ := anyFromBer_framed.1 h1
        refine .inr ⟨by omega, x, rest, h', c, rfl, hF, ?_⟩
        rcases bind_eq_err.1 h2 with h3 | ⟨_, h3, h4⟩
        · rw [liftRes_eq_error, assertTag_eq] at h3
          split at h3
          · simp at h3
          · simp only [err.injEq] at h3; exact .inl ⟨by assumption, h3.symm⟩
        · rw [liftRes_eq_ok, assertTag_eq] at h3
          split at h3
          · refine .inr ⟨by assumption, ?_⟩
            rcases bind_eq_err.1 h4 with h5 | ⟨o, _, h5⟩
            · rw [liftRes_eq_error] at h5
              exact (objectFromAny_err D _ _ _ _).1 h5
            · simp at h5
          · simp at h3
    · rintro (⟨h, -⟩ | ⟨-, h⟩ | ⟨-, x, rest, h', c, rfl, hF, h⟩)
      · exact absurd h hd
      · rw [anyFromBer_error.2 h]; rfl
      · rw [(anyFromBer_framed (rem := rest) (a := ⟨h', c⟩)).2 ⟨x, rfl, hF⟩, ok_bind]
        dsimp only
        rcases h with ⟨ht, rfl⟩ | ⟨ht, h⟩
        · rw [assertTag_eq, if_neg ht]; rfl
        · rw [assertTag_eq, if_pos ht, (objectFromAny_err D _ _ _ _).2 h]; rfl

/-- C91: more input is asked for exactly when the element is cut, whatever its tag number. -/
theorem C91_incomplete_iff (D : Deps) (t d n : Nat) (i : Bytes) :
    parseBerAnyWithTagR D t d i = .err (.incomplete (.size n)) ↔ 0 < d ∧ Cut false 50 i (.need n) := by
  unfold parseBerAnyWithTagR
  split
  · rename_i hd
    subst hd
    simp
  · rename_i hd
    constructor
    · intro h
      rcases bind_eq_err.1 h with h1 | ⟨r, h1, h2⟩
      · exact ⟨by omega, anyFromBer_incomplete.1 h1⟩
      · exfalso
        rcases bind_eq_err.1 h2 with h3 | ⟨_, _, h4⟩
        · revert h3; cases r.2.header.assertTag t <;> simp [liftRes]
        · rcases bind_eq_err.1 h4 with h5 | ⟨o, _, h5⟩
          · revert h5; cases objectFromAny D d r.2 <;> simp [liftRes]
          · simp at h5
    · rintro ⟨-, h⟩
      rw [anyFromBer_incomplete.2 h]; rfl

/-- C91: there is no other answer. -/
theorem C91_answers (D : Deps) (t d : Nat) (i : Bytes) :
    (∃ rem o, parseBerAnyWithTagR D t d i = .ok (rem, o)) ∨
    (∃ n, parseBerAnyWithTagR D t d i = .err (.incomplete (.size n))) ∨
    ∃ e, parseBerAnyWithTagR D t d i = .err (.error e) := by
  have hr := returns_parseBerAnyWithTagR D t d i
  cases h : parseBerAnyWithTagR D t d i with
  | ok r => exact .inl ⟨r.1, r.2, rfl⟩
  | panic => rw [h] at hr; exact absurd hr (by simp [Outcome.Returns])
  | diverge => rw [h] at hr; exact absurd hr (by simp [Outcome.Returns])
  | err x =>
    refine .inr ?_
    unfold parseBerAnyWithTagR at h
    split at h
    · simp only [err.injEq] at h; exact .inr ⟨_, by rw [← h]⟩
    · rcases bind_eq_err.1 h with h1 | ⟨r, h1, h2⟩
      · rcases anyFromBer_err_cases h1 with ⟨m, h, _⟩ | ⟨e, h, _⟩
        · exact .inl ⟨m, by rw [h]⟩
        · exact .inr ⟨e, by rw [h]⟩
      · rcases bind_eq_err.1 h2 with h3 | ⟨_, _, h4⟩
        · refine .inr ?_
          revert h3; cases r.2.header.assertTag t <;> simp [liftRes]
          exact fun h => ⟨_, h.symm⟩
        · rcases bind_eq_err.1 h4 with h5 | ⟨o, _, h5⟩
          · refine .inr ?_
            revert h5; cases objectFromAny D d r.2 <;> simp [liftRes]
            exact fun h => ⟨_, h.symm⟩
          · simp at h5

/-- C91: contents of another class are kept unread.  (`parse_ber_with_tag` reads contents of any class by the
universal tag.) -/
theorem C91_other_class (D : Deps) (t d : Nat) (e c rest : Bytes) (h : Header) (hF : Framed 50 e h c) (ht : h.tag = t)
    (hc : h.cls ≠ .universal) :
    parseBerAnyWithTagR D t (d + 1) (e ++ rest) = .ok (rest, .mk h (.unknown ⟨h, c⟩)) := by
  unfold parseBerAnyWithTagR
  rw [if_neg (by omega), (anyFromBer_framed (rem := rest) (a := ⟨h, c⟩)).2 ⟨e, rfl, hF⟩, ok_bind]
  dsimp only
  rw [assertTag_eq, if_pos ht]
  unfold objectFromAny
  dsimp only
  rw [if_pos hc]
  rfl

/-- A context-specific element [1] of indefinite length. -/
example := C91_other_class Tests.D0 1 0 [0xa1, 0x80, 0x05, 0x00, 0x00, 0x00] _ [9] _ (framed_read rfl) rfl (by decide)

theorem denotes_same_kind {D : Deps} {d : Nat} {h h' : Header} {c : Bytes} {x : Content} (H : Denotes D d h c x)
    (h1 : h'.cls = h.cls) (h2 : h'.constructed = h.constructed) (h3 : h'.tag = h.tag) (h4 : h'.length = h.length)
    (hx : ∀ a, x ≠ .unknown a) : Denotes D d h' c x := by
  cases H with
  | leaf d _ _ _ hL =>
    refine .leaf d h' c x ?_
    cases x
    case unknown a => exact absurd rfl (hx a)
    all_goals first
      | exact hL.elim
      | (simp only [Leaf] at hL ⊢; simp only [h1, h2, h3, h4]; exact hL)
  | sequence d _ items a1 a2 a3 a4 a5 => exact .sequence d h' items (h1.trans a1) (h3.trans a2) (h2.trans a3) a4 a5
  | set d _ items a1 a2 a3 a4 a5 => exact .set d h' items (h1.trans a1) (h3.trans a2) (h2.trans a3) a4 a5

/-- C91: on elements of universal class and a type known to the library, both functions agree (below 2^32 octets). -/
theorem C91_universal_agrees (D : Deps) (t : Nat) (i rest : Bytes) (o : BerObject)
    (hc : o.header.cls = .universal) (hl : ∀ l, o.header.length = .definite l → l < 2 ^ 32)
    (hk : ∀ a, o.content ≠ .unknown a) :
    parseBerAnyWithTagR D t 50 i = .ok (rest, o) ↔ parseBerWithTag D t i = .ok (rest, o) := by
  rw [C91_ok_iff, parseBerWithTag_iff]
  constructor
  · rintro ⟨e', c', h1, h2, h3, h4⟩
    exact ⟨e', c', h1, h2, h3, fun l h => by have := hl l h; simp only [maxObjectSize]; omega,
      denotes_same_kind h4 hc.symm rfl rfl rfl hk⟩
  · rintro ⟨e', c', h1, h2, h3, -, h4⟩
    exact ⟨e', c', h1, h2, h3, denotes_same_kind h4 hc rfl rfl rfl hk⟩

example : parseBerAnyWithTagR Tests.D0 1 50 [0x81, 0x01, 0xff] =
    .ok ([], .mk (Tests.h .contextSpecific false 1 1 [0x81]) (.unknown ⟨Tests.h .contextSpecific false 1 1 [0x81], [0xff]⟩)) ∧
    parseBerWithTag Tests.D0 1 [0x81, 0x01, 0xff] =
      .ok ([], .mk (Tests.h .contextSpecific false 1 1 [0x81]) (.boolean true)) := ⟨rfl, rfl⟩

/-- The tag number is compared before the contents are read. -/
example : parseBerAnyWithTagR Tests.D0 2 50 [0x01, 0x02, 0xff, 0xff] = .err (.error (.unexpectedTag (some 2) 1)) ∧
    parseBerAnyWithTagR Tests.D0 1 50 [0x01, 0x02, 0xff, 0xff] = .err (.error .invalidLength) ∧
    parseBerAnyWithTagR Tests.D0 2 50 [0x01, 0x02, 0xff] = .err (.incomplete (.size 1)) := ⟨rfl, rfl, rfl⟩

end Verif
