import Verif.SpecLang
import Verif.Props.Lang
import Verif.Props.FailInt
import Verif.Props.FailContent
import Verif.Props.SchemaFail
/-!
# The exact meaning of every program written with the library: C119
-/
namespace Verif
open Outcome Spec

/-- The function answers as the meaning says: with a value exactly when the meaning gives it, with an error exactly when
the meaning refuses so. -/
def Exact {E α : Type} (f : Bytes → IRes E α) (M : Meaning E α) : Prop :=
  (∀ i rem a, f i = .ok (rem, a) ↔ M.gives i rem a) ∧ ∀ i x, f i = .err x ↔ M.refuses i x

/-! ## The functions without closure -/

variable {D : Deps}

theorem width_pos (w : Width) : 1 ≤ w.octets := by cases w <;> decide

theorem undelimited_iff {d : Nat} {h : Header} {i : Bytes} {x : NomErr BerError} :
    getObjectContent d h i = .err x ↔ Undelimited h.constructed d h.length i x := by
  cases d with
  | zero =>
    rw [getObjectContent_err]
    constructor
    · intro hh
      simp only [skipContent, err.injEq] at hh
      subst hh
      exact .depth _ _
    · intro hh
      generalize hL : h.length = L at hh
      cases hh
      rfl
  | succ d =>
    cases hl : h.length with
    | definite l =>
      rw [getObjectContent_err]
      constructor
      · intro hh
        simp only [skipContent, hl] at hh
        split at hh
        · simp at hh
        · rcases bind_eq_err.1 hh with h1 | ⟨r, _, h2⟩
          · unfold takeStreaming at h1
            split at h1
            · rename_i hlt
              simp only [Needed.new, err.injEq] at h1
              rw [if_neg (by omega)] at h1
              subst h1
              exact .definite d l i hlt
            · simp at h1
          · simp at h2
      · intro hh
        cases hh with
        | definite _ _ _ hlt =>
          simp only [skipContent, hl]
          rw [if_neg (by omega)]
          unfold takeStreaming
          rw [if_pos hlt]
          simp only [err_bind, Needed.new]
          rw [if_neg (by omega)]
    | indefinite =>
      by_cases hk : h.constructed = true
      · rw [getObjectContent_indef_err hl hk]
        constructor
        · rintro ⟨es, q, rfl, hes, hq⟩
          rcases skipElement_err_cases.1 hq with ⟨m, rfl, hm⟩ | ⟨e, rfl, he⟩
          · exact .cut d es q m hk hes hm
          · exact .inside d es q e hk hes he
        · intro hh
          cases hh with
          | primitive _ _ h1 => rw [hk] at h1; cases h1
          | cut _ es q n _ hes hq => exact ⟨es, q, rfl, hes, skipElement_err_cases.2 (.inl ⟨n, rfl, hq⟩)⟩
          | inside _ es q e _ hes hq => exact ⟨es, q, rfl, hes, skipElement_err_cases.2 (.inr ⟨e, rfl, hq⟩)⟩
      · rw [getObjectContent_err]
        simp only [skipContent, hl, hk]
        constructor
        · intro hh
          simp only [Bool.false_eq_true, if_false, err.injEq] at hh
          subst hh
          exact .primitive d i rfl
        · intro hh
          cases hh with
          | primitive _ _ _ => rfl
          | cut _ _ _ _ h1 => exact absurd h1 (by simp)
          | inside _ _ _ _ h1 => exact absurd h1 (by simp)

theorem derContents_iff {D : Deps} {tag d : Nat} {h : Header} {i rem : Bytes} {x : Content} :
    parseDerContent D tag i h d = .ok (rem, x) ↔ DerContents D tag d h i rem x := C89_der_ok D tag d h i rem x

theorem derContentsRefused_iff {D : Deps} {tag d : Nat} {h : Header} {i : Bytes} {x : NomErr BerError} :
    parseDerContent D tag i h d = .err x ↔ DerContentsRefused D tag d h i x := by
  constructor
  · intro hh
    rcases C89_answers D tag d h i x (.inr hh) with ⟨n, rfl⟩ | ⟨e, rfl⟩
    · exact .inl ⟨n, rfl, (C89_der_incomplete_iff D tag d h i n).1 hh⟩
    · exact .inr ⟨e, rfl, (C89_der_rejected_iff D tag d h i e).1 hh⟩
  · rintro (⟨n, rfl, hh⟩ | ⟨e, rfl, hh⟩)
    · exact (C89_der_incomplete_iff D tag d h i n).2 hh
    · exact (C89_der_rejected_iff D tag d h i e).2 hh

/-- The contents after a header, for a header of universal class. -/
theorem derElement_universal {D : Deps} (hD : TimesKnown D) {h : Header} (hc : h.cls = .universal) (d : Nat) (i : Bytes) :
    derReadElementContentRecursive D i h d = (parseDerContent D h.tag i h d >>? fun r => .ok (r.1, .mk h r.2)) := by
  unfold derReadElementContentRecursive
  rw [if_neg (by simp [hc])]
  have hn := noUnk_derReadElementContentAs hD i h.tag h.length h.constructed d
  unfold parseDerContent
  cases hr : derReadElementContentAs D i h.tag h.length h.constructed d with
  | ok r => rfl
  | err e =>
    cases e with
    | incomplete n => rfl
    | error e =>
      cases e with
      | unknownTag t => exact absurd hr (hn t)
      | _ => rfl
    | failure e => rfl
  | panic => rfl
  | diverge => rfl

theorem derElement_foreign {D : Deps} {h : Header} (hc : h.cls ≠ .universal) (d : Nat) (i : Bytes) :
    derReadElementContentRecursive D i h d = derUnknown i h d := by
  unfold derReadElementContentRecursive
  rw [if_pos hc]

theorem derElement_ok {D : Deps} (hD : TimesKnown D) {h : Header} {d : Nat} {i rem : Bytes} {o : BerObject} :
    derReadElementContentRecursive D i h d = .ok (rem, o) ↔ o.header = h ∧
      ((h.cls ≠ .universal ∧ ∃ c, Delimited h.constructed d h.length i c rem ∧ o.content = .unknown ⟨h, c⟩) ∨
        (h.cls = .universal ∧ DerContents D h.tag d h i rem o.content)) := by
  by_cases hc : h.cls = .universal
  · rw [derElement_universal hD hc]
    simp only [hc, ne_eq, not_true, false_and, true_and, false_or]
    constructor
    · intro hh
      obtain ⟨r, h1, h2⟩ := bind_eq_ok.1 hh
      simp only [ok.injEq, Prod.mk.injEq] at h2
      obtain ⟨rfl, rfl⟩ := h2
      exact ⟨rfl, derContents_iff.1 h1⟩
    · rintro ⟨rfl, h1⟩
      rw [derContents_iff.2 h1]
      cases o
      rfl
  · rw [derElement_foreign hc]
    simp only [hc, ne_eq, not_false_eq_true, false_and, true_and, or_false]
    unfold derUnknown
    constructor
    · intro hh
      obtain ⟨r, h1, h2⟩ := bind_eq_ok.1 hh
      simp only [ok.injEq, Prod.mk.injEq] at h2
      obtain ⟨rfl, rfl⟩ := h2
      exact ⟨rfl, r.2, getObjectContent_delimited.1 h1, rfl⟩
    · rintro ⟨rfl, c, h1, h2⟩
      rw [getObjectContent_delimited.2 h1]
      obtain ⟨h, x⟩ := o
      simp only [BerObject.content, BerObject.header] at h2 ⊢
      rw [h2]
      rfl

theorem derElement_err {D : Deps} (hD : TimesKnown D) {h : Header} {d : Nat} {i : Bytes} {x : NomErr BerError} :
    derReadElementContentRecursive D i h d = .err x ↔
      (h.cls ≠ .universal ∧ Undelimited h.constructed d h.length i x) ∨
        (h.cls = .universal ∧ DerContentsRefused D h.tag d h i x) := by
  by_cases hc : h.cls = .universal
  · rw [derElement_universal hD hc]
    simp only [hc, ne_eq, not_true, false_and, true_and, false_or]
    rw [← derContentsRefused_iff]
    constructor
    · intro hh
      rcases bind_eq_err.1 hh with h1 | ⟨r, _, h2⟩
      · exact h1
      · simp at h2
    · intro hh; rw [hh]; rfl
  · rw [derElement_foreign hc]
    simp only [hc, ne_eq, not_false_eq_true, false_and, true_and, or_false]
    rw [← undelimited_iff]
    unfold derUnknown
    constructor
    · intro hh
      rcases bind_eq_err.1 hh with h1 | ⟨r, _, h2⟩
      · exact h1
      · simp at h2
    · intro hh; rw [hh]; rfl

theorem anyDer_ok {D : Deps} (hD : TimesKnown D) {d : Nat} {i rem : Bytes} {o : BerObject} :
    parseDerRecursive D d i = .ok (rem, o) ↔ PrimGives D (.any .der d) i rem o := by
  have hmax : ∀ l, maxObjectSize < l ↔ ¬ l < 2 ^ 32 := by intro l; unfold maxObjectSize; omega
  simp only [PrimGives, FramedBy]
  unfold parseDerRecursive
  constructor
  · intro hh
    obtain ⟨⟨i1, h⟩, h1, h2⟩ := bind_eq_ok.1 hh
    obtain ⟨hb, rfl, H⟩ := headerFromDer_iff.1 h1
    dsimp only at h2
    cases hl : h.length with
    | indefinite => exact absurd hl H.definite
    | definite l =>
      rw [hl] at h2
      dsimp only at h2
      split at h2
      · simp at h2
      · rename_i hle
        rw [hmax, Classical.not_not] at hle
        obtain ⟨rfl, h3⟩ := (derElement_ok hD).1 h2
        rcases h3 with ⟨hc, c, h4, h5⟩ | ⟨hc, c, h4, h5, h6, h7, h8⟩
        · rw [hl] at h4
          cases h4 with
          | definite d c rem =>
            exact ⟨c, ⟨hb, by simp, H, hl⟩, hle, .inl ⟨hc, by omega, h5⟩⟩
        · rw [hl] at h5
          cases h5
          refine ⟨c, ⟨hb, by rw [h4, List.append_assoc], H, hl⟩, hle, .inr ⟨hc, h6, h8⟩⟩
  · rintro ⟨c, ⟨hb, rfl, H, hl⟩, hle, h3⟩
    rw [List.append_assoc, headerFromDer_iff.2 ⟨hb, rfl, H⟩, ok_bind]
    simp only [hl]
    rw [if_neg (by rw [hmax]; simpa using hle), derElement_ok hD]
    refine ⟨rfl, ?_⟩
    rcases h3 with ⟨hc, h0, h5⟩ | ⟨hc, h6, h8⟩
    · obtain ⟨d, rfl⟩ := Nat.exists_eq_succ_of_ne_zero (by omega : d ≠ 0)
      refine .inl ⟨hc, c, ?_, h5⟩
      rw [hl]
      exact .definite d c rem
    · exact .inr ⟨hc, c, rfl, hl, h6, .inr hle, h8⟩

theorem anyBer_err {D : Deps} {d : Nat} {i : Bytes} {x : NomErr BerError} :
    parseBerRecursive D d i = .err x ↔ PrimRefuses D (.any .ber d) i x := by
  simp only [PrimRefuses]
  constructor
  · intro hh
    rcases C84_answers D d i x hh with ⟨n, rfl⟩ | ⟨e, rfl⟩
    · cases d with
      | zero => simp [parseBerRecursive, parseBerAnyR] at hh
      | succ d => exact .inl ⟨n, rfl, by omega, (C81_incomplete_iff D d i n).1 hh⟩
    · exact .inr ⟨e, rfl, (C84_rejected_iff D d i e).1 hh⟩
  · rintro (⟨n, rfl, h0, hh⟩ | ⟨e, rfl, hh⟩)
    · obtain ⟨d, rfl⟩ := Nat.exists_eq_succ_of_ne_zero (by omega : d ≠ 0)
      exact (C81_incomplete_iff D d i n).2 hh
    · exact (C84_rejected_iff D d i e).2 hh

/-- No element for a native integer: both functions answer with the refusal. -/
theorem int_unframed {R : Rules} {i : Bytes} {x : NomErr BerError} (w : Width) (h : IntUnframed R i x) :
    Prim.run D (.uint R w) i = .err x ∧ Prim.run D (.int R w) i = .err x := by
  cases R with
  | ber =>
    rcases h with ⟨n, rfl, h⟩ | ⟨e, rfl, h⟩
    · exact (C87_ber_unframed w.octets i).1 n h
    · exact (C87_ber_unframed w.octets i).2 e h
  | der =>
    rcases h with ⟨n, rfl, h⟩ | ⟨e, rfl, h⟩ | ⟨hb, c, h, l, rfl, H, hl, hlt, rfl⟩
    · exact (C87_der_unframed w.octets).1 i n h
    · exact (C87_der_unframed w.octets).2.1 i e h
    · exact (C87_der_unframed w.octets).2.2 hb c h l H hl hlt

theorem int_cover (R : Rules) (i : Bytes) : (∃ rem h c, FramedBy R i rem h c) ∨ ∃ x, IntUnframed R i x := by
  cases R with
  | ber =>
    rcases C87_ber_cover i with ⟨e, rest, h, c, h1, h2⟩ | ⟨m, h⟩ | ⟨e, h⟩
    · exact .inl ⟨rest, h, c, e, h1, h2⟩
    · exact .inr ⟨_, .inl ⟨m, rfl, h⟩⟩
    · exact .inr ⟨_, .inr ⟨e, rfl, h⟩⟩
  | der =>
    rcases C87_der_cover i with ⟨hb, c, rest, h, h1, h2, h3⟩ | ⟨m, h⟩ | ⟨e, h⟩ | ⟨hb, c, h, l, h1, h2, h3, h4⟩
    · exact .inl ⟨rest, h, c, hb, h1, h2, h3⟩
    · exact .inr ⟨_, .inl ⟨m, rfl, h⟩⟩
    · exact .inr ⟨_, .inr (.inl ⟨e, rfl, h⟩)⟩
    · exact .inr ⟨_, .inr (.inr ⟨hb, c, h, l, h1, h2, h3, h4, rfl⟩)⟩

/-- The answer of the unsigned functions to an element. -/
theorem uint_framed (w : Width) {R : Rules} {i rem c : Bytes} {h : Header} (hF : FramedBy R i rem h c) :
    Prim.run D (.uint R w) i =
      match intFault R h c, unsignedFault w.octets c with
      | some e, _ => .err (.error e)
      | none, some e => .err (.error e)
      | none, none => .ok (rem, (twosComplement c).toNat) := by
  cases R with
  | ber =>
    obtain ⟨e, rfl, hF⟩ := hF
    refine (C87_ber_unsigned w.octets (width_pos w) e rem c h hF).trans ?_
    simp only [intFault, unsignedFault]
    split
    · rfl
    · split
      · rfl
      · split
        · rfl
        · split <;> rfl
  | der =>
    obtain ⟨hb, rfl, H, hl⟩ := hF
    refine (C87_der_unsigned w.octets (width_pos w) hb rem c h H hl).trans ?_
    simp only [intFault, unsignedFault]
    split
    · rfl
    split
    · rfl
    split
    · rfl
    split
    · rfl
    split
    · rfl
    split
    · rfl
    split <;> rfl

/-- The answer of the signed functions to an element. -/
theorem int_framed (w : Width) {R : Rules} {i rem c : Bytes} {h : Header} (hF : FramedBy R i rem h c) :
    Prim.run D (.int R w) i =
      match intFault R h c, signedFault w.octets c with
      | some e, _ => .err (.error e)
      | none, some e => .err (.error e)
      | none, none => .ok (rem, twosComplement c) := by
  cases R with
  | ber =>
    obtain ⟨e, rfl, hF⟩ := hF
    refine (C87_ber_signed w.octets (width_pos w) e rem c h hF).trans ?_
    simp only [intFault, signedFault]
    split
    · rfl
    split
    · rfl
    split <;> rfl
  | der =>
    obtain ⟨hb, rfl, H, hl⟩ := hF
    refine (C87_der_signed w.octets (width_pos w) hb rem c h H hl).trans ?_
    simp only [intFault, signedFault]
    split
    · rfl
    split
    · rfl
    split
    · rfl
    split
    · rfl
    split
    · rfl
    split <;> rfl

theorem uint_err {R : Rules} {w : Width} {i : Bytes} {x : NomErr BerError} :
    Prim.run D (.uint R w) i = .err x ↔ PrimRefuses D (.uint R w) i x := by
  simp only [PrimRefuses]
  constructor
  · intro hh
    rcases int_cover R i with ⟨rem, h, c, hF⟩ | ⟨y, hy⟩
    · rw [uint_framed w hF] at hh
      refine .inr ⟨rem, h, c, ?_⟩
      split at hh
      · rename_i e h1
        cases hh
        exact ⟨e, hF, rfl, .inl h1⟩
      · rename_i e h1 h2
        cases hh
        exact ⟨e, hF, rfl, .inr ⟨h1, h2⟩⟩
      · simp at hh
    · rw [(int_unframed w hy).1] at hh
      cases hh
      exact .inl hy
  · rintro (hh | ⟨rem, h, c, e, hF, rfl, hh | ⟨h1, h2⟩⟩)
    · exact (int_unframed w hh).1
    · rw [uint_framed w hF, hh]
    · rw [uint_framed w hF, h1, h2]

theorem int_err {R : Rules} {w : Width} {i : Bytes} {x : NomErr BerError} :
    Prim.run D (.int R w) i = .err x ↔ PrimRefuses D (.int R w) i x := by
  simp only [PrimRefuses]
  constructor
  · intro hh
    rcases int_cover R i with ⟨rem, h, c, hF⟩ | ⟨y, hy⟩
    · rw [int_framed w hF] at hh
      refine .inr ⟨rem, h, c, ?_⟩
      split at hh
      · rename_i e h1
        cases hh
        exact ⟨e, hF, rfl, .inl h1⟩
      · rename_i e h1 h2
        cases hh
        exact ⟨e, hF, rfl, .inr ⟨h1, h2⟩⟩
      · simp at hh
    · rw [(int_unframed w hy).2] at hh
      cases hh
      exact .inl hy
  · rintro (hh | ⟨rem, h, c, e, hF, rfl, hh | ⟨h1, h2⟩⟩)
    · exact (int_unframed w hh).2
    · rw [int_framed w hF, hh]
    · rw [int_framed w hF, h1, h2]

theorem uint_ok {R : Rules} {w : Width} {i rem : Bytes} {v : Nat} :
    Prim.run D (.uint R w) i = .ok (rem, v) ↔ PrimGives D (.uint R w) i rem v := by
  cases R
  · simp only [PrimGives, reduceCtorEq, false_implies, true_and]
    exact C72_ber_unsigned w.octets (width_pos w) i rem v
  · simp only [PrimGives, true_implies]
    exact C72_der_unsigned w.octets (width_pos w) i rem v

theorem int_ok {R : Rules} {w : Width} {i rem : Bytes} {v : Int} :
    Prim.run D (.int R w) i = .ok (rem, v) ↔ PrimGives D (.int R w) i rem v := by
  cases R
  · simp only [PrimGives, reduceCtorEq, false_implies, true_and]
    exact C72_ber_signed w.octets (width_pos w) i rem v
  · simp only [PrimGives, true_implies]
    exact C72_der_signed w.octets (width_pos w) i rem v

theorem header_ok {R : Rules} {i rem : Bytes} {h : Header} :
    Prim.run D (.header R) i = .ok (rem, h) ↔ PrimGives D (.header R) i rem h := by
  cases R
  · exact headerFromBer_iff
  · exact headerFromDer_iff

theorem header_err {R : Rules} {i : Bytes} {x : NomErr BerError} :
    Prim.run D (.header R) i = .err x ↔ PrimRefuses D (.header R) i x := by
  simp only [PrimRefuses]
  cases R
  · constructor
    · intro hh
      rcases headerFromBer_err hh with ⟨n, rfl⟩ | ⟨e, rfl⟩
      · exact .inl ⟨n, rfl, headerFromBer_incomplete.1 hh⟩
      · exact .inr ⟨e, rfl, headerFromBer_error.1 hh⟩
    · rintro (⟨n, rfl, hh⟩ | ⟨e, rfl, hh⟩)
      · exact headerFromBer_incomplete.2 hh
      · exact headerFromBer_error.2 hh
  · constructor
    · intro hh
      rcases headerFromDer_err hh with ⟨n, rfl⟩ | ⟨e, rfl⟩
      · exact .inl ⟨n, rfl, headerFromDer_incomplete.1 hh⟩
      · exact .inr ⟨e, rfl, headerFromDer_error.1 hh⟩
    · rintro (⟨n, rfl, hh⟩ | ⟨e, rfl, hh⟩)
      · exact headerFromDer_incomplete.2 hh
      · exact headerFromDer_error.2 hh

theorem slice_ok {R : Rules} {tag : Nat} {i rem c : Bytes} :
    Prim.run D (.slice R tag) i = .ok (rem, c) ↔ PrimGives D (.slice R tag) i rem c := by
  simp only [Prim.run, PrimGives, parseSlice, container]
  constructor
  · intro hh
    obtain ⟨⟨r, h, c'⟩, h1, h2⟩ := bind_eq_ok.1 hh
    obtain ⟨v, h3, h4⟩ := bind_eq_ok.1 h2
    by_cases ht : h.tag = tag
    · simp only [assertTag_ok.2 ht, liftRes_ok, ok_bind, ok.injEq] at h3
      subst h3
      simp only [ok.injEq, Prod.mk.injEq] at h4
      obtain ⟨rfl, rfl⟩ := h4
      exact ⟨h, frame_iff.1 h1, ht⟩
    · simp only [assertTag_ne ht, liftRes, mapErr_err, err_bind, reduceCtorEq] at h3
  · rintro ⟨h, hF, ht⟩
    rw [frame_iff.2 hF, ok_bind]
    simp only [assertTag_ok.2 ht, liftRes_ok, ok_bind]

theorem slice_err {R : Rules} {tag : Nat} {i : Bytes} {x : NomErr BerError} :
    Prim.run D (.slice R tag) i = .err x ↔ PrimRefuses D (.slice R tag) i x := by
  simp only [Prim.run, PrimRefuses, parseSlice, container, HeadRefused]
  constructor
  · intro hh
    rcases bind_eq_err.1 hh with h1 | ⟨⟨r, h, c⟩, h1, h2⟩
    · exact .inl (frame_err_iff.1 h1)
    · rcases bind_eq_err.1 h2 with h3 | ⟨v, h3, h4⟩
      · by_cases ht : h.tag = tag
        · simp only [assertTag_ok.2 ht, liftRes_ok, ok_bind, reduceCtorEq] at h3
        · simp only [assertTag_ne ht, liftRes, mapErr_err, err_bind, err.injEq] at h3
          exact .inr ⟨r, h, c, frame_iff.1 h1, ht, h3.symm⟩
      · simp at h4
  · rintro (hh | ⟨r, h, c, hF, ht, rfl⟩)
    · rw [frame_err_iff.2 hh]; rfl
    · rw [frame_iff.2 hF, ok_bind]
      simp only [assertTag_ne ht, liftRes, mapErr_err, err_bind]

/-- Each function without closure answers as specified. -/
theorem prim_exact (hD : TimesKnown D) {α : Type} (p : Prim α) :
    Exact (p.run D) ⟨PrimGives D p, PrimRefuses D p⟩ := by
  cases p with
  | any R d =>
    cases R
    · refine ⟨fun i rem o => ?_, fun i x => anyBer_err⟩
      refine parseBerRecursive_iff.trans ?_
      simp only [PrimGives, FramedBy]
      constructor
      · rintro ⟨e, c, h1, h2, h3⟩; exact ⟨c, ⟨e, h1, h2⟩, h3⟩
      · rintro ⟨c, ⟨e, h1, h2⟩, h3⟩; exact ⟨e, c, h1, h2, h3⟩
    · exact ⟨fun i rem o => anyDer_ok hD, fun i x => parseDerRecursive_err D d i x⟩
  | typed R tag =>
    refine ⟨fun i rem o => parseTyped_iff, fun i x => ?_⟩
    cases R
    · exact parseBerWithTag_err D tag i x
    · exact parseDerWithTag_err D tag i x
  | uint R w => exact ⟨fun i rem v => uint_ok, fun i x => uint_err⟩
  | int R w => exact ⟨fun i rem v => int_ok, fun i x => int_err⟩
  | slice R tag => exact ⟨fun i rem c => slice_ok, fun i x => slice_err⟩
  | rawAny =>
    refine ⟨fun i rem a => anyFromBer_framed, fun i x => ?_⟩
    exact anyFromBer_err.trans skipElement_err_cases
  | header R => exact ⟨fun i rem h => header_ok, fun i x => header_err⟩
  | content R tag h d =>
    cases R
    · exact ⟨fun i rem x => C89_ber_ok D tag d h i rem x, fun i x => parseBerContent_err D tag d h i x⟩
    · exact ⟨fun i rem x => derContents_iff, fun i x => derContentsRefused_iff⟩
  | element h => exact ⟨fun i rem o => derElement_ok hD, fun i x => derElement_err hD⟩

/-! ## The combinators -/

section
variable {E : Type} [ParseErr E]

omit [ParseErr E] in
theorem exact_ok {α : Type} {f : Bytes → IRes E α} {M : Meaning E α} (h : Exact f M) {i rem : Bytes} {a : α} :
    M.gives i rem a ↔ f i = .ok (rem, a) := (h.1 i rem a).symm

omit [ParseErr E] in
theorem exact_err {α : Type} {f : Bytes → IRes E α} {M : Meaning E α} (h : Exact f M) {i : Bytes} {x : NomErr E} :
    M.refuses i x ↔ f i = .err x := (h.2 i x).symm

theorem exact_container {α : Type} {R : Rules} {f : Bytes → Header → IRes E α} {M : Header → Meaning E α}
    (bad : Header → Option BerError) (g : Bytes → Header → IRes E α)
    (hg : ∀ c h, g c h = match bad h with
      | some e => .err (.error (ParseErr.ofBer e))
      | none => f c h)
    (hf : ∀ h, Exact (fun c => f c h) (M h)) : Exact (container R g) (inElement R bad M) := by
  unfold container
  refine ⟨fun i rem a => ?_, fun i x => ?_⟩
  · simp only [inElement]
    constructor
    · intro hh
      obtain ⟨⟨r, h, c⟩, h1, h2⟩ := bind_eq_ok.1 hh
      obtain ⟨v, h3, h4⟩ := bind_eq_ok.1 h2
      simp only [ok.injEq, Prod.mk.injEq] at h4
      obtain ⟨rfl, rfl⟩ := h4
      simp only [hg] at h3
      cases hb : bad h with
      | some e => rw [hb] at h3; simp at h3
      | none =>
        rw [hb] at h3
        exact ⟨h, c, v.1, frame_iff.1 h1, hb, (exact_ok (hf h)).2 h3⟩
    · rintro ⟨h, c, r, hF, hb, hG⟩
      rw [frame_iff.2 hF, ok_bind]
      simp only [hg, hb, (exact_ok (hf h)).1 hG, ok_bind]
  · simp only [inElement]
    constructor
    · intro hh
      rcases bind_eq_err.1 hh with h1 | ⟨⟨r, h, c⟩, h1, h2⟩
      · exact .inl (frame_err_iff.1 h1)
      · refine .inr ⟨r, h, c, frame_iff.1 h1, ?_⟩
        rcases bind_eq_err.1 h2 with h3 | ⟨v, _, h4⟩
        · simp only [hg] at h3
          cases hb : bad h with
          | some e => rw [hb] at h3; cases h3; exact .inl ⟨e, rfl, rfl⟩
          | none => rw [hb] at h3; exact .inr ⟨rfl, (exact_err (hf h)).2 h3⟩
        · simp at h4
    · rintro (hh | ⟨r, h, c, hF, ⟨e, hb, rfl⟩ | ⟨hb, hG⟩⟩)
      · rw [frame_err_iff.2 hh]; rfl
      · rw [frame_iff.2 hF, ok_bind]
        simp only [hg, hb, err_bind]
      · rw [frame_iff.2 hF, ok_bind]
        simp only [hg, hb, (exact_err (hf h)).1 hG, err_bind]

theorem badTag_eq {α : Type} (tag : Nat) (h : Header) (x : IRes E α) :
    (liftResE (h.assertTag tag) >>? fun _ => x) = match badTag tag h with
      | some e => .err (.error (ParseErr.ofBer e))
      | none => x := by
  unfold badTag
  by_cases ht : h.tag = tag
  · rw [assertTag_ok.2 ht, if_pos ht]; rfl
  · rw [assertTag_ne ht, if_neg ht]; rfl

theorem badExplicit_eq {α : Type} (tag : Nat) (h : Header) (x : IRes E α) :
    (if h.cls = .universal then .err (.error (ParseErr.ofBer (.unexpectedClass none h.cls)))
      else liftResE (h.assertTag tag) >>? fun _ => liftResE h.assertConstructed >>? fun _ => x) =
    match badExplicit tag h with
      | some e => .err (.error (ParseErr.ofBer e))
      | none => x := by
  unfold badExplicit
  by_cases hc : h.cls = .universal
  · rw [if_pos hc, if_pos hc, hc]
  · rw [if_neg hc, if_neg hc]
    by_cases ht : h.tag = tag
    · rw [assertTag_ok.2 ht, if_neg (by simpa using ht)]
      cases hk : h.constructed <;> simp [Header.assertConstructed, hk, liftResE]
    · rw [assertTag_ne ht, if_pos ht]; rfl

/-- `many0` with enough fuel. -/
theorem exact_many {α : Type} {f : Bytes → IRes E α} {M : Meaning E α} (hf : Exact f M)
    (hs : ∀ i rem a, f i = .ok (rem, a) → rem <:+ i) :
    Exact (fun i => many0 f (i.length + 1) i) (asLong M) := by
  have key : ∀ fuel i, i.length < fuel →
      (∀ rem vs, many0 f fuel i = .ok (rem, vs) ↔ (asLong M).gives i rem vs) ∧
      ∀ x, many0 f fuel i = .err x ↔ (asLong M).refuses i x := by
    intro fuel
    induction fuel with
    | zero => intro i h; omega
    | succ fuel ih =>
      intro i hi
      unfold many0
      simp only [asLong]
      cases hr : f i with
      | ok r =>
        obtain ⟨r, v⟩ := r
        have hg : M.gives i r v := (exact_ok hf).2 hr
        have hle : r.length ≤ i.length := (hs i r v hr).length_le
        have huniq : ∀ {r' v'}, M.gives i r' v' → r' = r ∧ v' = v := by
          intro r' v' h
          rw [exact_ok hf, hr] at h
          cases h
          exact ⟨rfl, rfl⟩
        have hnor : ∀ x, ¬ M.refuses i x := by
          intro x h
          rw [exact_err hf, hr] at h
          cases h
        dsimp only
        by_cases he : r.length = i.length
        · rw [if_pos he]
          constructor
          · intro rem vs
            simp only [reduceCtorEq, false_iff]
            rintro ⟨hR, e, hE⟩
            cases hR with
            | nil => exact hnor _ hE
            | cons _ r' v' vs _ h1 h2 h3 =>
              obtain ⟨rfl, rfl⟩ := huniq h1
              omega
          · intro x
            constructor
            · intro hx
              cases hx
              exact ⟨[], i, .nil i, .inr ⟨⟨r, v, hg, he⟩, rfl⟩⟩
            · rintro ⟨vs, q, hR, hx⟩
              cases hR with
              | nil =>
                rcases hx with ⟨hx, _⟩ | ⟨_, rfl⟩
                · exact absurd hx (hnor _)
                · rfl
              | cons _ r' v' vs _ h1 h2 h3 =>
                obtain ⟨rfl, rfl⟩ := huniq h1
                omega
        · rw [if_neg he]
          have hlt : r.length < i.length := by omega
          obtain ⟨ih1, ih2⟩ := ih r (by omega)
          constructor
          · intro rem vs
            constructor
            · intro hh
              obtain ⟨s, h1, h2⟩ := bind_eq_ok.1 hh
              simp only [ok.injEq, Prod.mk.injEq] at h2
              obtain ⟨rfl, rfl⟩ := h2
              obtain ⟨h3, h4⟩ := (ih1 s.1 s.2).1 h1
              exact ⟨.cons i r v _ _ hg hlt h3, h4⟩
            · rintro ⟨hR, e, hE⟩
              cases hR with
              | nil => exact absurd hE (hnor _)
              | cons _ r' v' vs _ h1 h2 h3 =>
                obtain ⟨rfl, rfl⟩ := huniq h1
                rw [(ih1 rem vs).2 ⟨h3, e, hE⟩]
                rfl
          · intro x
            constructor
            · intro hh
              rcases bind_eq_err.1 hh with h1 | ⟨s, _, h2⟩
              · obtain ⟨vs, q, h3, h4⟩ := (ih2 x).1 h1
                exact ⟨v :: vs, q, .cons i r v _ _ hg hlt h3, h4⟩
              · simp at h2
            · rintro ⟨vs, q, hR, hx⟩
              cases hR with
              | nil =>
                rcases hx with ⟨hx, _⟩ | ⟨⟨r', v', h1, h2⟩, _⟩
                · exact absurd hx (hnor _)
                · obtain ⟨rfl, rfl⟩ := huniq h1
                  omega
              | cons _ r' v' vs _ h1 h2 h3 =>
                obtain ⟨rfl, rfl⟩ := huniq h1
                rw [(ih2 x).2 ⟨vs, q, h3, hx⟩]
                rfl
      | err y =>
        have hg : ∀ {r v}, ¬ M.gives i r v := by
          intro r v h
          rw [exact_ok hf, hr] at h
          cases h
        have hR : M.refuses i y := (exact_err hf).2 hr
        have huniq : ∀ {x}, M.refuses i x → x = y := by
          intro x h
          rw [exact_err hf, hr] at h
          cases h
          rfl
        have hrow : ∀ {vs q}, Row M.gives i vs q → vs = [] ∧ q = i := by
          intro vs q h
          cases h with
          | nil => exact ⟨rfl, rfl⟩
          | cons _ _ _ _ _ h1 => exact absurd h1 hg
        cases y with
        | error e =>
          dsimp only
          constructor
          · intro rem vs
            constructor
            · intro hh
              cases hh
              exact ⟨.nil i, e, hR⟩
            · rintro ⟨h1, _⟩
              obtain ⟨rfl, rfl⟩ := hrow h1
              rfl
          · intro x
            simp only [reduceCtorEq, false_iff]
            rintro ⟨vs, q, h1, hx⟩
            obtain ⟨rfl, rfl⟩ := hrow h1
            rcases hx with ⟨hx, hn⟩ | ⟨⟨r', v', h1, h2⟩, _⟩
            · exact hn e (huniq hx)
            · exact hg h1
        | incomplete n =>
          dsimp only
          constructor
          · intro rem vs
            simp only [reduceCtorEq, false_iff]
            rintro ⟨h1, e, h2⟩
            obtain ⟨rfl, rfl⟩ := hrow h1
            exact absurd (huniq h2) (by simp)
          · intro x
            constructor
            · intro hh
              cases hh
              exact ⟨[], i, .nil i, .inl ⟨hR, by simp⟩⟩
            · rintro ⟨vs, q, h1, hx⟩
              obtain ⟨rfl, rfl⟩ := hrow h1
              rcases hx with ⟨hx, hn⟩ | ⟨⟨r', v', h1, h2⟩, _⟩
              · rw [huniq hx]
              · exact absurd h1 hg
        | failure n =>
          dsimp only
          constructor
          · intro rem vs
            simp only [reduceCtorEq, false_iff]
            rintro ⟨h1, e, h2⟩
            obtain ⟨rfl, rfl⟩ := hrow h1
            exact absurd (huniq h2) (by simp)
          · intro x
            constructor
            · intro hh
              cases hh
              exact ⟨[], i, .nil i, .inl ⟨hR, by simp⟩⟩
            · rintro ⟨vs, q, h1, hx⟩
              obtain ⟨rfl, rfl⟩ := hrow h1
              rcases hx with ⟨hx, hn⟩ | ⟨⟨r', v', h1, h2⟩, _⟩
              · rw [huniq hx]
              · exact absurd h1 hg
      | panic =>
        have hg : ∀ {r v}, ¬ M.gives i r v := by
          intro r v h
          rw [exact_ok hf, hr] at h
          cases h
        have hR : ∀ {x}, ¬ M.refuses i x := by
          intro x h
          rw [exact_err hf, hr] at h
          cases h
        constructor
        · intro rem vs
          simp only [reduceCtorEq, false_iff]
          rintro ⟨h1, e, h2⟩
          cases h1 with
          | nil => exact hR h2
          | cons _ _ _ _ _ h1 => exact hg h1
        · intro x
          simp only [reduceCtorEq, false_iff]
          rintro ⟨vs, q, h1, hx⟩
          cases h1 with
          | nil =>
            rcases hx with ⟨hx, _⟩ | ⟨⟨_, _, h1, _⟩, _⟩
            · exact hR hx
            · exact hg h1
          | cons _ _ _ _ _ h1 => exact hg h1
      | diverge =>
        have hg : ∀ {r v}, ¬ M.gives i r v := by
          intro r v h
          rw [exact_ok hf, hr] at h
          cases h
        have hR : ∀ {x}, ¬ M.refuses i x := by
          intro x h
          rw [exact_err hf, hr] at h
          cases h
        constructor
        · intro rem vs
          simp only [reduceCtorEq, false_iff]
          rintro ⟨h1, e, h2⟩
          cases h1 with
          | nil => exact hR h2
          | cons _ _ _ _ _ h1 => exact hg h1
        · intro x
          simp only [reduceCtorEq, false_iff]
          rintro ⟨vs, q, h1, hx⟩
          cases h1 with
          | nil =>
            rcases hx with ⟨hx, _⟩ | ⟨⟨_, _, h1, _⟩, _⟩
            · exact hR hx
            · exact hg h1
          | cons _ _ _ _ _ h1 => exact hg h1
  exact ⟨fun i => (key (i.length + 1) i (by omega)).1, fun i => (key (i.length + 1) i (by omega)).2⟩

/-- The meaning of `nom::combinator::complete`, as in `Prog.meaning`. -/
def completeM {α : Type} (M : Meaning E α) : Meaning E α :=
  ⟨M.gives, fun i x => (M.refuses i x ∧ ∀ n, x ≠ .incomplete n) ∨
    ((∃ n, M.refuses i (.incomplete n)) ∧ x = .error (ParseErr.ofKind i .complete))⟩

omit [ParseErr E] in
/-- The meaning of `nom::combinator::cut`, as in `Prog.meaning`. -/
def cutM {α : Type} (M : Meaning E α) : Meaning E α :=
  ⟨M.gives, fun i x => (M.refuses i x ∧ ∀ e, x ≠ .error e) ∨ ∃ e, M.refuses i (.error e) ∧ x = .failure e⟩

/-- The meaning of `nom::combinator::all_consuming`, as in `Prog.meaning`. -/
def allM {α : Type} (M : Meaning E α) : Meaning E α :=
  ⟨fun i rem a => rem = [] ∧ M.gives i [] a,
   fun i x => M.refuses i x ∨ ∃ rem a, M.gives i rem a ∧ rem ≠ [] ∧ x = .error (ParseErr.ofKind rem .eof)⟩

theorem exact_complete {α : Type} {f : Bytes → IRes E α} {M : Meaning E α} (hf : Exact f M) :
    Exact (complete f) (completeM M) := by
  refine ⟨fun i rem a => complete_ok.trans (exact_ok hf).symm, fun i x => ?_⟩
  simp only [completeM, exact_err hf]
  unfold complete
  cases hr : f i with
  | err y => cases y <;> cases x <;> simp [eq_comm]
  | _ => simp

omit [ParseErr E] in
theorem exact_cut {α : Type} {f : Bytes → IRes E α} {M : Meaning E α} (hf : Exact f M) :
    Exact (cut f) (cutM M) := by
  refine ⟨fun i rem a => cut_ok.trans (exact_ok hf).symm, fun i x => ?_⟩
  simp only [cutM, exact_err hf]
  unfold cut
  cases hr : f i with
  | err y => cases y <;> cases x <;> simp [eq_comm]
  | _ => simp

theorem exact_all {α : Type} {f : Bytes → IRes E α} {M : Meaning E α} (hf : Exact f M) :
    Exact (allConsuming f) (allM M) := by
  refine ⟨fun i rem a => ?_, fun i x => ?_⟩
  · simp only [allM, exact_ok hf]
    unfold allConsuming
    constructor
    · intro hh
      obtain ⟨⟨r, v⟩, h1, h2⟩ := bind_eq_ok.1 hh
      cases r with
      | nil => cases h2; exact ⟨rfl, h1⟩
      | cons _ _ => simp at h2
    · rintro ⟨rfl, h1⟩
      rw [h1]; rfl
  · simp only [allM, exact_ok hf, exact_err hf]
    unfold allConsuming
    constructor
    · intro hh
      rcases bind_eq_err.1 hh with h1 | ⟨⟨r, v⟩, h1, h2⟩
      · exact .inl h1
      · cases r with
        | nil => simp at h2
        | cons b r => cases h2; exact .inr ⟨b :: r, v, h1, by simp, rfl⟩
    · rintro (h1 | ⟨rem, a, h1, h2, rfl⟩)
      · rw [h1]; rfl
      · rw [h1, ok_bind]
        cases rem with
        | nil => exact absurd rfl h2
        | cons b r => rfl

/-- `all_consuming(many0(complete(cut(f))))`. -/
theorem exact_untilEnd {α : Type} {f : Bytes → IRes E α} {M : Meaning E α} (hf : Exact f M)
    (hs : ∀ i rem a, f i = .ok (rem, a) → rem <:+ i) : Exact (ofSubparser f) (untilEnd M) := by
  have h1 := exact_all (exact_many (exact_complete (exact_cut hf)) fun i rem a h =>
    hs i rem a (cut_ok.1 (complete_ok.1 h)))
  refine ⟨fun i rem vs => (h1.1 i rem vs).trans ?_, fun i x => (h1.2 i x).trans ?_⟩
  · simp only [allM, asLong, completeM, cutM, untilEnd]
    constructor
    · rintro ⟨rfl, h2, e, h3⟩
      refine ⟨rfl, h2, ?_⟩
      rcases h3 with ⟨(⟨_, h4⟩ | ⟨_, _, h4⟩), _⟩ | ⟨⟨n, (⟨h4, _⟩ | ⟨_, _, h4⟩)⟩, _⟩
      · exact absurd rfl (h4 e)
      · cases h4
      · exact ⟨n, h4⟩
      · cases h4
    · rintro ⟨rfl, h2, n, h3⟩
      exact ⟨rfl, h2, _, .inr ⟨⟨n, .inl ⟨h3, by simp⟩⟩, rfl⟩⟩
  · simp only [allM, asLong, completeM, cutM, untilEnd]
    constructor
    · rintro (⟨vs, q, h2, (⟨h3, h4⟩ | h3)⟩ | ⟨q, vs, ⟨h2, e, h3⟩, h4, h5⟩)
      · refine ⟨vs, q, h2, .inl ?_⟩
        rcases h3 with ⟨(⟨h5, h6⟩ | ⟨e, h5, rfl⟩), h7⟩ | ⟨_, rfl⟩
        · cases x with
          | incomplete n => exact absurd rfl (h7 n)
          | error e => exact absurd rfl (h6 e)
          | failure e => exact ⟨e, .inr h5, rfl⟩
        · exact ⟨e, .inl h5, rfl⟩
        · exact absurd rfl (h4 _)
      · exact ⟨vs, q, h2, .inr (.inr h3)⟩
      · refine ⟨vs, q, h2, .inr (.inl ⟨h4, ?_, h5⟩)⟩
        rcases h3 with ⟨(⟨_, h6⟩ | ⟨_, _, h6⟩), _⟩ | ⟨⟨n, (⟨h6, _⟩ | ⟨_, _, h6⟩)⟩, _⟩
        · exact absurd rfl (h6 e)
        · cases h6
        · exact ⟨n, h6⟩
        · cases h6
    · rintro ⟨vs, q, h2, ⟨e, h3, rfl⟩ | ⟨h3, ⟨n, h4⟩, rfl⟩ | h3⟩
      · refine .inl ⟨vs, q, h2, .inl ⟨.inl ⟨?_, by simp⟩, by simp⟩⟩
        rcases h3 with h3 | h3
        · exact .inr ⟨e, h3, rfl⟩
        · exact .inl ⟨h3, by simp⟩
      · exact .inr ⟨q, vs, ⟨h2, _, .inr ⟨⟨n, .inl ⟨h4, by simp⟩⟩, rfl⟩⟩, h3, rfl⟩
      · exact .inl ⟨vs, q, h2, .inr h3⟩

theorem exact_convert {α : Type} {f : Bytes → IRes BerError α} {G : Bytes → Bytes → α → Prop}
    {F : Bytes → NomErr BerError → Prop} (hf : Exact f ⟨G, F⟩) :
    Exact (E := E) (fun i => convertErr (f i)) ⟨G, fun i x => ∃ y, F i y ∧ x = y.map ParseErr.ofBer⟩ := by
  refine ⟨fun i rem a => ?_, fun i x => ?_⟩
  · refine Iff.trans ?_ (hf.1 i rem a)
    show convertErr (f i) = _ ↔ _
    cases hr : f i <;> simp [convertErr, Outcome.mapErr]
  · have h2 : ∀ y, F i y ↔ f i = .err y := fun y => (hf.2 i y).symm
    simp only [h2]
    cases hr : f i <;> simp [convertErr, Outcome.mapErr, eq_comm]

/-! ## All programs -/

theorem prog_exact (D : Deps) (hD : TimesKnown D) {α : Type} (p : Prog E α) : Exact (p.run D) (p.meaning D) := by
  induction p with
  | value x =>
    refine ⟨fun i rem a => ?_, fun i e => ?_⟩
    · simp only [Prog.run, Prog.meaning]
      cases x <;> simp [eq_comm, and_comm]
    · simp only [Prog.run, Prog.meaning]
      cases x <;> simp
  | bind p f ihp ihf =>
    refine ⟨fun i rem b => ?_, fun i x => ?_⟩
    · simp only [Prog.run, Prog.meaning, exact_ok ihp, exact_ok (ihf _)]
      rw [bind_eq_ok]
      exact ⟨fun ⟨r, h1, h2⟩ => ⟨r.1, r.2, h1, h2⟩, fun ⟨m, a, h1, h2⟩ => ⟨(m, a), h1, h2⟩⟩
    · simp only [Prog.run, Prog.meaning, exact_ok ihp, exact_err ihp, exact_err (ihf _)]
      rw [bind_eq_err]
      exact or_congr Iff.rfl ⟨fun ⟨r, h1, h2⟩ => ⟨r.1, r.2, h1, h2⟩, fun ⟨m, a, h1, h2⟩ => ⟨(m, a), h1, h2⟩⟩
  | prim p => exact exact_convert (prim_exact hD p)
  | container R f ih => exact exact_container (fun _ => none) _ (fun _ _ => rfl) ih
  | defined R tag f ih =>
    exact exact_container (f := fun c h => (f h).run D c) (badTag tag) _ (fun c h => badTag_eq tag h _) ih
  | explicit R tag f ih =>
    exact exact_container (f := fun c h => (f h).run D c) (badExplicit tag) _ (fun c h => badExplicit_eq tag h _) ih
  | implicit R tag f ih =>
    exact exact_container (f := fun c h => (f h 50).run D c) (badTag tag) _ (fun c h => badTag_eq tag h _)
      (fun h => ih h 50)
  | several R tag p ih =>
    exact exact_container (f := fun c _ => ofSubparser (p.run D) c) (badTag tag) _ (fun c h => badTag_eq tag h _)
      (fun _ => exact_untilEnd ih (prog_suffix D p))
  | within b p ih =>
    refine ⟨fun i rem a => ?_, fun i x => ?_⟩
    · simp only [Prog.run, Prog.meaning, exact_ok ih]
      rw [bind_eq_ok]
      constructor
      · rintro ⟨r, h1, h2⟩; cases h2; exact ⟨rfl, r.1, h1⟩
      · rintro ⟨rfl, r, h1⟩; exact ⟨(r, a), h1, rfl⟩
    · simp only [Prog.run, Prog.meaning, exact_err ih]
      rw [bind_eq_err]
      simp
  | attempt p ih =>
    refine ⟨fun i rem o => ?_, fun i x => ?_⟩
    · simp only [Prog.run, Prog.meaning, exact_ok ih, exact_err ih, attempting]
      cases p.run D i with
      | ok r => cases o <;> simp [Prod.ext_iff]
      | err e => cases o <;> simp [eq_comm]
      | _ => simp
    · simp only [Prog.run, Prog.meaning, attempting]
      cases p.run D i <;> simp
  | opt p ih =>
    refine ⟨fun i rem o => ?_, fun i x => ?_⟩
    · simp only [Prog.run, Prog.meaning, exact_ok ih, exact_err ih, optionally]
      cases p.run D i with
      | ok r => cases o <;> simp [Prod.ext_iff]
      | err e => cases e <;> cases o <;> simp [eq_comm]
      | _ => simp
    · simp only [Prog.run, Prog.meaning, exact_err ih, optionally]
      cases p.run D i with
      | err e => cases e <;> cases x <;> simp
      | _ => simp
  | orElse p q ihp ihq =>
    refine ⟨fun i rem a => ?_, fun i x => ?_⟩
    · simp only [Prog.run, Prog.meaning, exact_ok ihp, exact_err ihp, exact_ok ihq, either]
      cases p.run D i with
      | err e => cases e <;> simp
      | _ => simp
    · simp only [Prog.run, Prog.meaning, exact_err ihp, exact_err ihq, either]
      cases p.run D i with
      | err e => cases e <;> cases x <;> simp
      | _ => simp
  | many p ih => exact exact_many ih (prog_suffix D p)
  | complete p ih => exact exact_complete ih
  | cut p ih => exact exact_cut ih
  | allConsuming p ih => exact exact_all ih
  | eof =>
    refine ⟨fun i rem a => ?_, fun i x => ?_⟩
    · simp only [Prog.run, Prog.meaning, atEnd]
      cases i <;> simp [eq_comm]
    · simp only [Prog.run, Prog.meaning, atEnd]
      cases i <;> simp [eq_comm]

/-- C119: every program accepts exactly the octets that its meaning says, with the value and the rest it says. -/
theorem C119_accepts (D : Deps) (hD : TimesKnown D) {α : Type} (p : Prog E α) (i rem : Bytes) (a : α) :
    p.run D i = .ok (rem, a) ↔ (p.meaning D).gives i rem a := (prog_exact D hD p).1 i rem a

/-- C119: every program refuses exactly the octets that its meaning says, with the error it says. -/
theorem C119_refuses (D : Deps) (hD : TimesKnown D) {α : Type} (p : Prog E α) (i : Bytes) (x : NomErr E) :
    p.run D i = .err x ↔ (p.meaning D).refuses i x := (prog_exact D hD p).2 i x

/-- C119: the meaning is complete and unambiguous: to every input there is exactly one answer, for a program whose own
code on values neither panics nor loops. -/
theorem C119_cover (D : Deps) (hD : TimesKnown D) {α : Type} (p : Prog E α) (hp : p.Safe D) (i : Bytes) :
    (∃ rem a, (p.meaning D).gives i rem a ∧ (∀ rem' a', (p.meaning D).gives i rem' a' → rem' = rem ∧ a' = a) ∧
      ∀ x, ¬ (p.meaning D).refuses i x) ∨
    ∃ x, (p.meaning D).refuses i x ∧ (∀ x', (p.meaning D).refuses i x' → x' = x) ∧
      ∀ rem a, ¬ (p.meaning D).gives i rem a := by
  simp only [← C119_accepts D hD, ← C119_refuses D hD]
  have h := C118_total D p hp i
  cases hr : p.run D i with
  | ok r =>
    refine .inl ⟨r.1, r.2, rfl, fun rem a h => ?_, by simp⟩
    cases h
    exact ⟨rfl, rfl⟩
  | err x => exact .inr ⟨x, rfl, fun y h => by cases h; rfl, by simp⟩
  | panic => rw [hr] at h; exact absurd h id
  | diverge => rw [hr] at h; exact absurd h id

example := C119_cover Tests.D0 timesKnown_D0 wrappedProg (wrappedProg_safe _) [0x30, 0x03, 0x02, 0x01, 0x02]

end

/-! ## The meaning of one program in plain words -/

/-- C119: what the program `wrappedProg` accepts: a SEQUENCE with the INTEGER 1 in its shortest form and an OCTET STRING
and nothing more; the contents of the OCTET STRING start with a SEQUENCE of INTEGER values of at most 64 bits up to its
end. -/
theorem C119_wrapped (D : Deps) (hD : TimesKnown D) (i rem : Bytes) (vs : List Nat) :
    wrappedProg.run D i = .ok (rem, vs) ↔
      ∃ h c e1 c1 e2 h2 b rest h3 c3, FramedBy .der i rem h c ∧ h.tag = 16 ∧ c = e1 ++ e2 ∧
        IntElement e1 c1 ∧ MinimalInt c1 ∧ twosComplement c1 = 1 ∧ FramedBy .der e2 [] h2 b ∧ h2.tag = 4 ∧
        FramedBy .der b rest h3 c3 ∧ h3.tag = 16 ∧
        Row (fun j r (v : Nat) => ∃ e c, j = e ++ r ∧ IntElement e c ∧ MinimalInt c ∧ twosComplement c = v ∧ v < 2 ^ 64)
          c3 vs [] := by
  have hbad : ∀ {h : Header} {t : Nat}, badTag t h = none ↔ h.tag = t := by
    intro h t; unfold badTag; split <;> simp_all
  have hrow : ∀ {c vs q}, Row (PrimGives D (.uint .der .w64)) c vs q ↔
      Row (fun j r (v : Nat) => ∃ e c, j = e ++ r ∧ IntElement e c ∧ MinimalInt c ∧ twosComplement c = v ∧ v < 2 ^ 64)
        c vs q := by
    have : (PrimGives D (.uint .der .w64)) =
        (fun j r (v : Nat) => ∃ e c, j = e ++ r ∧ IntElement e c ∧ MinimalInt c ∧ twosComplement c = v ∧ v < 2 ^ 64) := by
      funext j r v
      simp only [PrimGives, true_implies, Width.octets]
    intro c vs q
    rw [this]
  rw [C119_accepts D hD]
  simp only [wrappedProg, Prog.meaning, inElement, hbad, untilEnd, hrow]
  constructor
  · rintro ⟨h, c, _, hF, ht, mid, v, ⟨e1, c1, rfl, h1, h2, h3, h4⟩, mid2, u, h5, mid3, b, ⟨hs, h6, h7⟩, mid4, _, ⟨rfl, rfl⟩,
      rfl, r, h8, c3, r', h9, h10, rfl, h11, _⟩
    split at h5
    · rename_i hv
      obtain ⟨rfl, _⟩ := h5
      exact ⟨h, _, e1, c1, _, hs, b, r, h8, c3, hF, ht, rfl, h1, h2 rfl, by rw [h3, hv]; rfl, h6, h7, h9, h10, h11⟩
    · exact absurd h5.2 (by simp)
  · rintro ⟨h, c, e1, c1, e2, h2, b, rest, h3, c3, hF, ht, rfl, h4, h5, h6, h7, h8, h9, h10, h11⟩
    refine ⟨h, _, [], hF, ht, e2, 1, ⟨e1, c1, rfl, h4, fun _ => h5, h6, by decide⟩, e2, (), ?_, [], b, ⟨h2, h7, h8⟩, [], (),
      ⟨rfl, rfl⟩, rfl, rest, h3, c3, [], h9, h10, rfl, h11, ?_⟩
    · rw [if_pos rfl]; exact ⟨rfl, rfl⟩
    · exact ⟨.size 1, .incomplete (.size 1), .inl (.inl ⟨1, rfl, .empty⟩), rfl⟩

/-- The hypotheses are met: this input is accepted. -/
example : ∃ rem vs, (wrappedProg.meaning Tests.D0).gives
    [0x30, 0x0d, 0x02, 0x01, 0x01, 0x04, 0x08, 0x30, 0x06, 0x02, 0x01, 0x07, 0x02, 0x01, 0x09, 0xff] rem vs :=
  ⟨[0xff], [7, 9], (C119_accepts Tests.D0 timesKnown_D0 wrappedProg _ _ _).1 rfl⟩

/-- And this one is refused with an error of the user. -/
example : (wrappedProg.meaning Tests.D0).refuses [0x30, 0x03, 0x02, 0x01, 0x02] (.error (.version 2)) :=
  (C119_refuses Tests.D0 timesKnown_D0 wrappedProg _ _).1 rfl

end Verif
