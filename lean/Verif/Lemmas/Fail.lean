import Verif.SpecFail
import Verif.Lemmas.Cuts
import Verif.Lemmas.Denote
/-!
# Lemmas on rejected input
-/
namespace Verif
open Outcome Spec

/-! ## Headers -/

theorem tagLoop_err {bs : Bytes} {count c : Nat} (hc : count ≤ 6) {x : NomErr BerError} :
    tagLoop bs count c = .err x ↔
      x = .error .invalidTag ∧ ∀ m ∈ bs.take (6 - count), 128 ≤ m.toNat := by
  induction bs generalizing count c with
  | nil => simp [tagLoop, eq_comm]
  | cons b bs ih =>
    unfold tagLoop
    split
    · rw [show 6 - count = 0 by omega]; simp [eq_comm]
    · dsimp only
      rw [show 6 - count = (6 - (count + 1)) + 1 by omega, List.take_succ_cons]
      split
      · simp only [reduceCtorEq, List.mem_cons, forall_eq_or_imp, false_iff]
        omega
      · rw [ih (by omega)]
        simp only [List.mem_cons, forall_eq_or_imp]
        constructor
        · rintro ⟨h1, h2⟩; exact ⟨h1, by omega, h2⟩
        · rintro ⟨h1, _, h2⟩; exact ⟨h1, h2⟩

theorem parseIdentifier_err {i : Bytes} {x : NomErr BerError} (h : parseIdentifier i = .err x) :
    (i = [] ∧ x = .incomplete (.size 1)) ∨ ∃ b rest, i = b :: rest ∧ x = .error .invalidTag ∧
      b.toNat % 32 = 31 ∧ ∀ m ∈ rest.take 5, 128 ≤ m.toNat := by
  cases i with
  | nil => simp [parseIdentifier, Needed.new] at h; exact .inl ⟨rfl, h.symm⟩
  | cons b i =>
    refine .inr ⟨b, i, rfl, ?_⟩
    unfold parseIdentifier at h
    dsimp only at h
    split at h
    · rename_i hb
      rcases bind_eq_err.1 h with h | ⟨r, _, h⟩
      · obtain ⟨h1, h2⟩ := (tagLoop_err (by omega)).1 h
        exact ⟨h1, hb, h2⟩
      · simp at h
    · simp at h

theorem parseIdentifier_tag {b : UInt8} {rest : Bytes} (h1 : b.toNat % 32 = 31)
    (h2 : ∀ m ∈ rest.take 5, 128 ≤ m.toNat) : parseIdentifier (b :: rest) = .err (.error .invalidTag) := by
  unfold parseIdentifier
  dsimp only
  rw [if_pos h1, (tagLoop_err (by omega)).2 ⟨rfl, h2⟩]
  rfl

/-- Errors of the length octets other than `Incomplete`. -/
theorem parseLength_err {k : Outcome (NomErr BerError) Length} {i : Bytes} {x : NomErr BerError}
    (h : parseLength k i = .err x) :
    (∃ n, x = .incomplete (.size n)) ∨ (∃ rest, i = 0x80 :: rest ∧ k = .err x) ∨
      (x = .error .invalidLength ∧ ((∃ rest, i = 0xff :: rest) ∨
        ∃ b ds rest, i = b :: (ds ++ rest) ∧ 128 < b.toNat ∧ b.toNat < 255 ∧
          ds.length = b.toNat - 128 ∧ 2 ^ 64 ≤ base256 ds)) := by
  cases i with
  | nil => simp [parseLength, Needed.new] at h; exact .inl ⟨1, h.symm⟩
  | cons b i =>
    have hb := b.toNat_lt
    unfold parseLength at h
    dsimp only at h
    split at h
    · simp at h
    · split at h
      · have e : b = 0x80 := UInt8.toNat_inj.1 (by change b.toNat = 128; omega)
        subst e
        refine .inr (.inl ⟨i, rfl, ?_⟩)
        cases k <;> simp [Outcome.map] at h
        rw [h]
      · split at h
        · have e : b = 0xff := UInt8.toNat_inj.1 (by change b.toNat = 255; omega)
          subst e
          simp at h
          exact .inr (.inr ⟨h.symm, .inl ⟨i, rfl⟩⟩)
        · rcases bind_eq_err.1 h with h | ⟨⟨r1, r2⟩, h1, h2⟩
          · unfold takeStreaming at h
            split at h
            · simp only [err.injEq, Needed.new] at h
              rw [if_neg (by omega)] at h
              exact .inl ⟨_, h.symm⟩
            · simp at h
          · dsimp only at h2
            unfold takeStreaming at h1
            split at h1
            · simp at h1
            · simp only [ok.injEq, Prod.mk.injEq] at h1
              obtain ⟨rfl, rfl⟩ := h1
              rw [bytesToU64_eq] at h2
              split at h2
              · rename_i heq
                simp only [err.injEq] at h2
                refine .inr (.inr ⟨h2.symm, .inr ⟨b, i.take (b.toNat % 128), i.drop (b.toNat % 128), (by rw [List.take_append_drop]),
                  by omega, by omega, ?_, ?_⟩⟩)
                · rw [List.length_take]; omega
                · split at heq
                  · simp at heq
                  · rename_i hn
                    simp only [Nat.zero_mul, Nat.zero_add, not_or, Nat.not_lt] at hn
                    exact hn.1
              · simp at h2

theorem parseLength_huge {k : Outcome (NomErr BerError) Length} {b : UInt8} {ds rest : Bytes}
    (h1 : 128 < b.toNat) (h2 : b.toNat < 255) (h3 : ds.length = b.toNat - 128) (h4 : 2 ^ 64 ≤ base256 ds) :
    parseLength k (b :: (ds ++ rest)) = .err (.error .invalidLength) := by
  unfold parseLength
  dsimp only
  rw [if_neg (by omega), if_neg (by omega), if_neg (by omega)]
  unfold takeStreaming
  rw [if_neg (by rw [List.length_append]; omega), ok_bind]
  dsimp only
  rw [show b.toNat % 128 = ds.length by omega, List.take_left, bytesToU64_eq]
  rw [if_neg]
  simp only [Nat.zero_mul, Nat.zero_add, not_or, Nat.not_lt]
  refine ⟨h4, ?_⟩
  rintro rfl
  simp at h3
  omega

/-- A header reader with the treatment `K` of indefinite lengths. -/
def headerBy (K : Bool → Outcome (NomErr BerError) Length) (i : Bytes) : IRes BerError Header :=
  parseIdentifier i >>? fun r =>
    parseLength (K r.2.constructed) r.1 >>? fun s =>
      .ok (s.1, { cls := r.2.cls, constructed := r.2.constructed, tag := r.2.tag,
                  length := s.2, rawTag := some r.2.raw })

theorem headerBy_error {K : Bool → Outcome (NomErr BerError) Length} {R : Bool → Option BerError}
    (hK : ∀ k e, K k = .err e ↔ ∃ e', e = .error e' ∧ R k = some e') {i : Bytes} {e : BerError} :
    headerBy K i = .err (.error e) ↔ HeaderFails R i e := by
  unfold headerBy
  constructor
  · intro h
    rcases bind_eq_err.1 h with h | ⟨⟨i1, a⟩, h1, h2⟩
    · rcases parseIdentifier_err h with ⟨_, h⟩ | ⟨b, rest, rfl, h, h1, h2⟩
      · simp at h
      · simp only [NomErr.error.injEq] at h
        subst h
        exact .tag b rest h1 h2
    · rcases bind_eq_err.1 h2 with h2 | ⟨r, _, h2⟩
      · obtain ⟨num, h3, h4, h5, h6⟩ := parseIdentifier_iff.1 h1
        subst h3
        dsimp only at h2
        rcases parseLength_err h2 with ⟨n, hx⟩ | ⟨rest, rfl, hx⟩ | ⟨hx, ⟨rest, rfl⟩ | ⟨b, ds, rest, rfl, g1, g2, g3, g4⟩⟩
        · simp at hx
        · obtain ⟨e', h7, h8⟩ := (hK _ _).1 hx
          simp only [NomErr.error.injEq] at h7
          subst h7
          exact .indefinite _ rest _ _ _ _ h4 h6 h8
        · simp only [NomErr.error.injEq] at hx
          subst hx
          exact .reserved _ rest _ _ _ h4 h6
        · simp only [NomErr.error.injEq] at hx
          subst hx
          exact .huge _ ds rest _ _ _ b h4 h6 g1 g2 g3 g4
      · simp at h2
  · intro h
    cases h with
    | tag b rest h1 h2 => rw [parseIdentifier_tag h1 h2]; rfl
    | reserved id rest cls k num h1 h2 =>
      rw [(parseIdentifier_iff (rem := 0xff :: rest) (a := ⟨cls, k, num % 2 ^ 32, id⟩)).2 ⟨num, rfl, h1, rfl, h2⟩]
      rfl
    | huge id ds rest cls k num b h1 h2 h3 h4 h5 h6 =>
      rw [(parseIdentifier_iff (rem := b :: (ds ++ rest)) (a := ⟨cls, k, num % 2 ^ 32, id⟩)).2
        ⟨num, rfl, h1, rfl, h2⟩, ok_bind]
      dsimp only
      rw [parseLength_huge h3 h4 h5 h6]
      rfl
    | indefinite id rest cls k num _ h1 h2 h3 =>
      rw [(parseIdentifier_iff (rem := 0x80 :: rest) (a := ⟨cls, k, num % 2 ^ 32, id⟩)).2 ⟨num, rfl, h1, rfl, h2⟩,
        ok_bind]
      dsimp only
      have : K k = .err (.error e) := (hK _ _).2 ⟨e, rfl, h3⟩
      unfold parseLength
      dsimp only
      rw [if_neg (by decide), if_pos (by decide), this]
      rfl

theorem headerFromBer_error {i : Bytes} {e : BerError} :
    headerFromBer i = .err (.error e) ↔ HeaderFails berIndefinite i e :=
  headerBy_error (R := berIndefinite) (K := fun k => if k then .ok .indefinite else .err (.error .constructExpected)) (by
    intro k e
    cases k <;> simp [berIndefinite, eq_comm])

theorem headerFromDer_error {i : Bytes} {e : BerError} :
    headerFromDer i = .err (.error e) ↔ HeaderFails derIndefinite i e :=
  headerBy_error (R := derIndefinite) (K := fun _ => .err (.error (.derConstraintFailed .indefiniteLength))) (by
    intro k e
    simp [derIndefinite, eq_comm])

/-- Reading a header answers with a request for octets or with an error, never with a failure. -/
theorem headerFromBer_err {i : Bytes} {x : NomErr BerError} (h : headerFromBer i = .err x) :
    (∃ n, x = .incomplete (.size n)) ∨ ∃ e, x = .error e := by
  unfold headerFromBer at h
  rcases bind_eq_err.1 h with h | ⟨⟨i1, a⟩, h1, h2⟩
  · rcases parseIdentifier_err h with ⟨_, h⟩ | ⟨b, rest, rfl, h, h1, h2⟩
    · exact .inl ⟨_, h⟩
    · exact .inr ⟨_, h⟩
  · rcases bind_eq_err.1 h2 with h2 | ⟨r, _, h2⟩
    · rcases parseLength_err h2 with ⟨n, h⟩ | ⟨rest, _, h⟩ | ⟨h, _⟩
      · exact .inl ⟨n, h⟩
      · dsimp only at h
        split at h
        · simp at h
        · simp only [err.injEq] at h
          exact .inr ⟨_, h.symm⟩
      · exact .inr ⟨_, h⟩
    · simp at h2

/-! ## Delimiting an element -/

theorem skipLoop_err {n : Nat} {fuel : Nat} {i : Bytes} {x : NomErr BerError}
    (h : skipLoop (skipContent n) fuel i = .err x) :
    ∃ (es : List Bytes) (q : Bytes), i = es.flatten ++ q ∧ (∀ e ∈ es, Element LooseEoc LooseEoc n e) ∧
      skipElement n q = .err x := by
  induction fuel generalizing i with
  | zero => simp [skipLoop] at h
  | succ fuel ih =>
    rw [skipLoop] at h
    rcases bind_eq_err.1 h with h1 | ⟨⟨i1, hd⟩, h1, h2⟩
    · exact ⟨[], i, rfl, by simp, by unfold skipElement; rw [h1]; rfl⟩
    · rcases bind_eq_err.1 h2 with h3 | ⟨⟨i2, b⟩, h3, h4⟩
      · exact ⟨[], i, rfl, by simp, by unfold skipElement; rw [h1, ok_bind]; exact h3⟩
      · obtain ⟨e, rfl, he⟩ := skip_sound h1 h3
        cases b with
        | true => simp at h4
        | false =>
          simp only [Bool.false_eq_true, if_false] at he h4
          obtain ⟨es, q, rfl, h5, h6⟩ := ih h4
          refine ⟨e :: es, q, by simp, fun x hx => ?_, h6⟩
          rcases List.mem_cons.1 hx with rfl | hx
          · exact he
          · exact h5 x hx

theorem skipElement_fails {n : Nat} {q : Bytes} {e : BerError} (h : FrameFails n q e) :
    skipElement n q = .err (.error e) := by
  induction h with
  | header n q e h => unfold skipElement; rw [headerFromBer_error.2 h]; rfl
  | depth hb rest h h1 => unfold skipElement; rw [berHeader_reads h1, ok_bind]; rfl
  | inside n hb es q h e h1 h2 h3 _ ih =>
    unfold skipElement
    rw [berHeader_reads h1, ok_bind]
    simp only [skipContent, h2, h1.indef_constructed h2, if_true]
    exact skipLoop_elements h3 q _ ih _ (by omega)

theorem skipElement_err {n : Nat} {q : Bytes} {x : NomErr BerError} (h : skipElement n q = .err x) :
    (∃ m, x = .incomplete (.size m)) ∨ ∃ e, x = .error e ∧ FrameFails n q e := by
  have hdr : ∀ {n : Nat} {q : Bytes} {x : NomErr BerError}, headerFromBer q = .err x →
      (∃ m, x = .incomplete (.size m)) ∨ ∃ e, x = .error e ∧ FrameFails n q e := by
    intro n q x h1
    rcases headerFromBer_err h1 with h2 | ⟨e, rfl⟩
    · exact .inl h2
    · exact .inr ⟨e, rfl, .header _ _ _ (headerFromBer_error.1 h1)⟩
  induction n generalizing q x with
  | zero =>
    unfold skipElement at h
    rcases bind_eq_err.1 h with h1 | ⟨⟨i1, hd⟩, h1, h2⟩
    · exact hdr h1
    · simp [skipContent] at h2
      subst h2
      obtain ⟨hb, rfl, H⟩ := headerFromBer_iff.1 h1
      exact .inr ⟨_, rfl, .depth hb i1 hd H⟩
  | succ n ih =>
    unfold skipElement at h
    rcases bind_eq_err.1 h with h1 | ⟨⟨i1, hd⟩, h1, h2⟩
    · exact hdr h1
    · obtain ⟨hb, rfl, H⟩ := headerFromBer_iff.1 h1
      simp only [skipContent] at h2
      split at h2
      · rename_i l hl
        split at h2
        · simp at h2
        · rcases bind_eq_err.1 h2 with h3 | ⟨r, _, h3⟩
          · unfold takeStreaming at h3
            split at h3
            · simp only [err.injEq, Needed.new] at h3
              rw [if_neg (by omega)] at h3
              exact .inl ⟨_, h3.symm⟩
            · simp at h3
          · simp at h3
      · rename_i hl
        rw [if_pos (H.indef_constructed hl)] at h2
        obtain ⟨es, q, rfl, h5, h6⟩ := skipLoop_err h2
        rcases ih h6 with h7 | ⟨e, h7, h8⟩
        · exact .inl h7
        · exact .inr ⟨e, h7, .inside n hb es q hd _ H hl h5 h8⟩

theorem anyFromBer_error {q : Bytes} {e : BerError} :
    anyFromBer q = .err (.error e) ↔ FrameFails 50 q e := by
  rw [anyFromBer_err]
  constructor
  · intro h
    rcases skipElement_err h with ⟨m, h⟩ | ⟨e', h, h'⟩
    · simp at h
    · simp only [NomErr.error.injEq] at h
      rwa [h]
  · exact skipElement_fails

/-- Delimiting an element asks for octets or is an error, never a failure. -/
theorem anyFromBer_err_cases {q : Bytes} {x : NomErr BerError} (h : anyFromBer q = .err x) :
    (∃ m, x = .incomplete (.size m) ∧ Cut false 50 q (.need m)) ∨
      ∃ e, x = .error e ∧ FrameFails 50 q e := by
  rcases skipElement_err (anyFromBer_err.1 h) with ⟨m, rfl⟩ | ⟨e, rfl, h'⟩
  · exact .inl ⟨m, rfl, anyFromBer_incomplete.1 h⟩
  · exact .inr ⟨e, rfl, h'⟩

/-! ## Contents -/

/-- Inverts one row of the tag dispatch. -/
local macro "ukind" : tactic => `(tactic|
  (intro t; constructor
   · intro h; subst h; rfl
   · intro h; unfold uKind at h; split at h <;> simp at h; rfl))

theorem strFromAny_err (D : Deps) (k : StrKind) (a : Any) (e : BerError) :
    strFromAny D k a = .err e ↔
      (a.header.constructed = true ∧ e = .unsupported) ∨
      (a.header.constructed = false ∧ ¬ (CharsOk D k a.data ∧ IsUtf8 a.data) ∧ e = .stringInvalidCharset) := by
  rw [← charsOk_iff]
  unfold strFromAny
  cases a.header.constructed <;> cases validCharset D k a.data <;> cases validUtf8 a.data <;>
    simp [eq_comm]

theorem liftExcept_eq_err {ε α : Type} {x : Except ε α} {e : ε} :
    liftExcept x = .err e ↔ x = .error e := by cases x <;> simp [liftExcept]

theorem map_eq_err {ε α β : Type} {x : Outcome ε α} {f : α → β} {e : ε} :
    x.map f = .err e ↔ x = .err e := by cases x <;> simp [Outcome.map]

/-- Contents of the types other than SEQUENCE and SET. -/
theorem universalContent_leaf_err (D : Deps) (conv : Any → Res BerObject) (h : Header) (c : Bytes)
    (hs : h.tag ≠ 16) (hs' : h.tag ≠ 17) (e : BerError) :
    universalContent D conv ⟨h, c⟩ = .err e ↔ LeafFails D h c e := by
  have str : ∀ {k : StrKind} {t : Nat}, t = strTag k ↔ uKind t = .str k := uKind_str.symm
  have t1 : ∀ {t : Nat}, t = 1 ↔ uKind t = .boolean := by ukind
  have t3 : ∀ {t : Nat}, t = 3 ↔ uKind t = .bitString := by ukind
  have t10 : ∀ {t : Nat}, t = 10 ↔ uKind t = .enumerated := by ukind
  have t23 : ∀ {t : Nat}, t = 23 ↔ uKind t = .utcTime := by ukind
  have t24 : ∀ {t : Nat}, t = 24 ↔ uKind t = .generalizedTime := by ukind
  have t28 : ∀ {t : Nat}, t = 28 ↔ uKind t = .universalString := by ukind
  have t30 : ∀ {t : Nat}, t = 30 ↔ uKind t = .bmpString := by ukind
  have t16 : ∀ {t : Nat}, t = 16 ↔ uKind t = .sequence := by ukind
  have t17 : ∀ {t : Nat}, t = 17 ↔ uKind t = .set := by ukind
  constructor
  · intro hh
    unfold universalContent at hh
    simp only at hh
    cases hk : uKind h.tag with
    | sequence => exact absurd (t16.2 hk) hs
    | set => exact absurd (t17.2 hk) hs'
    | bitString =>
      rw [hk] at hh
      cases c with
      | nil => simp at hh; subst hh; exact .bitStringEmpty (t3.2 hk) rfl
      | cons b r =>
        cases hc : h.constructed <;> simp [hc] at hh
        subst hh
        exact .bitStringConstructed (t3.2 hk) (by simp) hc
    | boolean =>
      rw [hk] at hh
      simp only [map_eq_err, Any.bool] at hh
      split at hh
      · split at hh <;> simp at hh
      · rename_i hl
        simp only [err.injEq] at hh
        subst hh
        exact .boolean (t1.2 hk) hl
    | enumerated =>
      rw [hk] at hh
      simp only [map_eq_err, enumerated_eq] at hh
      cases hc : h.constructed with
      | true => simp [hc] at hh; subst hh; exact .enumConstructed (t10.2 hk) hc
      | false =>
        simp only [hc, Bool.false_eq_true, if_false] at hh
        split at hh
        · simp at hh
        · simp only [err.injEq] at hh
          subst hh
          exact .enumLarge (t10.2 hk) hc (by omega)
    | utcTime =>
      rw [hk] at hh
      simp only [map_eq_err, liftExcept_eq_err] at hh
      exact .utcTime e (t23.2 hk) hh
    | generalizedTime =>
      rw [hk] at hh
      simp only [map_eq_err, liftExcept_eq_err] at hh
      exact .generalizedTime e (t24.2 hk) hh
    | universalString =>
      rw [hk] at hh
      cases hc : h.constructed <;> simp [hc] at hh
      subst hh
      exact .universalConstructed (t28.2 hk) hc
    | str k =>
      rw [hk] at hh
      rcases (strFromAny_err D k _ e).1 hh with ⟨hc, rfl⟩ | ⟨hc, hx, rfl⟩
      · exact .stringConstructed k (str.2 hk) hc
      · exact .stringCharset k (str.2 hk) hc hx
    | bmpString =>
      rw [hk] at hh
      cases hc : h.constructed with
      | true => simp [hc] at hh; subst hh; exact .bmpConstructed (t30.2 hk) hc
      | false =>
        simp only [hc, Bool.false_eq_true, if_false] at hh
        split at hh
        · simp only [err.injEq] at hh
          subst hh
          exact .bmpOdd (t30.2 hk) hc (by omega)
        · rename_i hp
          split at hh
          · simp at hh
          · rename_i hv
            simp only [err.injEq] at hh
            subst hh
            refine .bmpCharset (t30.2 hk) hc (by omega) fun hu => hv ?_
            exact ((validUtf16_iff c).2 hu).2
    | _ => rw [hk] at hh; simp at hh
  · intro hh
    unfold universalContent
    cases hh with
    | boolean h1 h2 => simp only [t1.1 h1, Any.bool, if_neg h2, map_eq_err]
    | bitStringEmpty h1 h2 => subst h2; simp only [t3.1 h1]
    | bitStringConstructed h1 h2 h3 =>
      cases c with
      | nil => exact absurd rfl h2
      | cons b r => simp only [t3.1 h1, h3, if_true]
    | enumConstructed h1 h2 => simp only [t10.1 h1, map_eq_err, enumerated_eq, h2, if_true]
    | enumLarge h1 h2 h3 =>
      simp only [t10.1 h1, map_eq_err, enumerated_eq, h2, Bool.false_eq_true, if_false]
      rw [if_neg (by omega)]
    | stringConstructed k h1 h2 => simp only [str.1 h1]; exact (strFromAny_err D k _ _).2 (.inl ⟨h2, rfl⟩)
    | stringCharset k h1 h2 h3 => simp only [str.1 h1]; exact (strFromAny_err D k _ _).2 (.inr ⟨h2, h3, rfl⟩)
    | bmpConstructed h1 h2 => simp only [t30.1 h1, h2, if_true]
    | bmpOdd h1 h2 h3 =>
      simp only [t30.1 h1, h2, Bool.false_eq_true, if_false]
      rw [if_pos (by omega)]
    | bmpCharset h1 h2 h3 h4 =>
      simp only [t30.1 h1, h2, Bool.false_eq_true, if_false]
      rw [if_neg (by omega), if_neg]
      intro hv
      exact h4 ((validUtf16_iff c).1 ⟨h3, hv⟩)
    | universalConstructed h1 h2 => simp only [t28.1 h1, h2, if_true]
    | utcTime _ h1 h2 => simp only [t23.1 h1, map_eq_err, liftExcept_eq_err, h2]
    | generalizedTime _ h1 h2 => simp only [t24.1 h1, map_eq_err, liftExcept_eq_err, h2]
    | primitive h1 h2 => omega

/-- Collecting the members stops at the first one at fault. -/
theorem collectItems_err {conv : Any → Res BerObject} {fuel : Nat} {data : Bytes} (hf : data.length < fuel)
    {e : BerError} (hconv : ∀ a o, conv a = .ok o → o.header = a.header) :
    collectItems conv fuel data = .err e ↔
      ∃ (items : List Item) (q : Bytes), data = items.flatMap Item.bytes ++ q ∧ q ≠ [] ∧
        (∀ it ∈ items, Framed 50 it.bytes it.header it.body ∧
          conv ⟨it.header, it.body⟩ = .ok (.mk it.header it.value)) ∧
        ((∃ x, anyFromBer q = .err x ∧ e = errOfNom x) ∨
          ∃ x rest h c, q = x ++ rest ∧ Framed 50 x h c ∧ conv ⟨h, c⟩ = .err e) := by
  induction fuel generalizing data with
  | zero => omega
  | succ fuel ih =>
    unfold collectItems
    constructor
    · intro h
      cases data with
      | nil => simp at h
      | cons x xs =>
        simp only at h
        rcases bind_eq_err.1 h with h1 | ⟨⟨rem, a⟩, h1, h2⟩
        · refine ⟨[], x :: xs, rfl, by simp, by simp, .inl ?_⟩
          cases hx : anyFromBer (x :: xs) with
          | err y => rw [hx] at h1; simp only [mapErr, err.injEq] at h1; exact ⟨y, rfl, h1.symm⟩
          | _ => rw [hx] at h1; simp [mapErr] at h1
        · simp only [mapErr_eq_ok] at h1
          obtain ⟨el, he, hF⟩ := anyFromBer_framed.1 h1
          rcases bind_eq_err.1 h2 with h3 | ⟨o1, h3, h4⟩
          · exact ⟨[], x :: xs, rfl, by simp, by simp, .inr ⟨el, rem, _, _, he, hF, h3⟩⟩
          · rcases bind_eq_err.1 h4 with h5 | ⟨os', _, h6⟩
            · have hlen := framed_nonempty hF
              have hl2 := congrArg List.length he
              simp only [List.length_append, List.length_cons] at hl2 hf
              obtain ⟨items, q, g1, g2, g3, g4⟩ := (ih (by simp only; omega)).1 h5
              refine ⟨⟨el, a.header, a.data, o1.content⟩ :: items, q, ?_, g2, ?_, g4⟩
              · rw [he, List.flatMap_cons, List.append_assoc, ← g1]
              · intro it hit
                rcases List.mem_cons.1 hit with rfl | hit
                · refine ⟨hF, ?_⟩
                  have := hconv _ _ h3
                  simp only at this ⊢
                  rw [← this, BerObject.eta, this]
                  exact h3
                · exact g3 it hit
            · simp at h6
    · rintro ⟨items, q, rfl, hq, h, hx⟩
      cases items with
      | nil =>
        simp only [List.flatMap_nil, List.nil_append]
        cases q with
        | nil => exact absurd rfl hq
        | cons y ys =>
          simp only
          rcases hx with ⟨x, h1, rfl⟩ | ⟨x, rest, hd, c, h1, h2, h3⟩
          · rw [h1]; rfl
          · rw [h1, (anyFromBer_framed (rem := rest) (a := ⟨hd, c⟩)).2 ⟨x, rfl, h2⟩]
            simp only [mapErr_ok, ok_bind, h3]
            rfl
      | cons it items =>
        obtain ⟨hF, hc⟩ := h it (by simp)
        have hlen := framed_nonempty hF
        obtain ⟨x, xs, hx'⟩ : ∃ x xs, (it :: items).flatMap Item.bytes ++ q = x :: xs := by
          cases hh : (it :: items).flatMap Item.bytes ++ q with
          | nil =>
            exfalso
            rw [List.flatMap_cons] at hh
            have := congrArg List.length hh
            simp only [List.length_append, List.length_nil] at this
            omega
          | cons x xs => exact ⟨x, xs, rfl⟩
        rw [hx']
        simp only
        rw [← hx', List.flatMap_cons, List.append_assoc,
          anyFromBer_framed (rem := items.flatMap Item.bytes ++ q) (a := ⟨it.header, it.body⟩) |>.2
            ⟨it.bytes, rfl, hF⟩]
        simp only [mapErr_ok, ok_bind, hc]
        rw [(ih (data := items.flatMap Item.bytes ++ q) ?_).2
          ⟨items, q, rfl, hq, fun it' h' => h it' (by simp [h']), hx⟩]
        · rfl
        · rw [List.flatMap_cons] at hf
          simp only [List.length_append] at hf ⊢
          omega

/-- Conversion rejects exactly the contents that are to be rejected, with the error specified. -/
theorem objectFromAny_err (D : Deps) (d : Nat) (h : Header) (c : Bytes) (e : BerError) :
    objectFromAny D d ⟨h, c⟩ = .err e ↔ ContentFails D d h c e := by
  induction d generalizing h c e with
  | zero =>
    simp only [objectFromAny, err.injEq]
    constructor
    · rintro rfl; exact .depth h c
    · intro hd; cases hd; rfl
  | succ d ih =>
    have hconv : ∀ a o, objectFromAny D d a = .ok o → o.header = a.header :=
      fun a o => objectFromAny_header
    have items_eq : ∀ items : List Item,
        (∀ it ∈ items, Framed 50 it.bytes it.header it.body ∧
          objectFromAny D d ⟨it.header, it.body⟩ = .ok (.mk it.header it.value)) ↔
        (∀ it ∈ items, Framed 50 it.bytes it.header it.body ∧ Denotes D d it.header it.body it.value) := by
      intro items
      constructor
      · intro hh it hi
        exact ⟨(hh it hi).1, (objectFromAny_iff D d _ _ _ (framed_definite_length (hh it hi).1)).1 (hh it hi).2⟩
      · intro hh it hi
        exact ⟨(hh it hi).1, (objectFromAny_iff D d _ _ _ (framed_definite_length (hh it hi).1)).2 (hh it hi).2⟩
    have coll : h.cls = .universal → h.tag = 16 ∨ h.tag = 17 → h.constructed = true →
        (collectItems (objectFromAny D d) (c.length + 1) c = .err e ↔ ContentFails D (d + 1) h c e) := by
      intro hu ht hc
      rw [collectItems_err (by omega) hconv]
      constructor
      · rintro ⟨items, q, rfl, hq, h1, h2⟩
        rw [items_eq] at h1
        rcases h2 with ⟨x, h3, rfl⟩ | ⟨x, rest, h', c', rfl, h3, h4⟩
        · rcases anyFromBer_err_cases h3 with ⟨m, rfl, h4⟩ | ⟨e, rfl, h4⟩
          · exact .cut d h items q m hu ht hc h1 hq h4
          · exact .frame d h items q e hu ht hc h1 hq h4
        · exact .member d h items x rest c' h' e hu ht hc h1 h3 ((ih _ _ _).1 h4)
      · intro hh
        cases hh with
        | leaf _ _ _ _ _ hL =>
          exfalso
          cases hL <;> first
            | omega
            | (rename_i k hk _; cases k <;> simp [strTag] at hk <;> omega)
            | (rename_i k hk _ _; cases k <;> simp [strTag] at hk <;> omega)
            | simp_all
        | frame _ _ items q _ _ _ _ h1 hq h2 =>
          exact ⟨items, q, rfl, hq, (items_eq _).2 h1, .inl ⟨_, anyFromBer_error.2 h2, rfl⟩⟩
        | cut _ _ items q n _ _ _ h1 hq h2 =>
          exact ⟨items, q, rfl, hq, (items_eq _).2 h1, .inl ⟨_, anyFromBer_incomplete.2 h2, rfl⟩⟩
        | member _ _ items x rest c' h' _ _ _ _ h1 h2 h3 =>
          refine ⟨items, x ++ rest, rfl, ?_, (items_eq _).2 h1, .inr ⟨x, rest, h', c', rfl, h2, (ih _ _ _).2 h3⟩⟩
          intro h0
          have := framed_nonempty h2
          have := congrArg List.length h0
          simp only [List.length_append, List.length_nil] at this
          omega
    simp only [objectFromAny]
    by_cases hcls : h.cls = .universal
    · simp only [hcls, ne_eq, not_true_eq_false, if_false, map_eq_err]
      by_cases hs : h.tag = 16 ∨ h.tag = 17
      · have hu : universalContent D (objectFromAny D d) ⟨h, c⟩ = .err e ↔
            (h.assertConstructed >>? fun _ => collectItems (objectFromAny D d) (c.length + 1) c) = .err e := by
          rcases hs with hs | hs
          · rw [universalContent_sequence (by simp [hs, uKind])]
            unfold Header.assertConstructed
            split <;> simp [map_eq_err]
          · rw [universalContent_set (by simp [hs, uKind])]
            unfold Header.assertConstructed
            split <;> simp [map_eq_err]
        rw [hu]
        unfold Header.assertConstructed
        cases hc : h.constructed with
        | true => simp only [if_true, ok_bind]; exact coll hcls hs hc
        | false =>
          simp only [Bool.false_eq_true, if_false, err_bind, err.injEq]
          constructor
          · rintro rfl; exact .leaf d h c _ hcls (.primitive hs hc)
          · intro hh
            cases hh with
            | leaf _ _ _ _ _ hL =>
              cases hL <;> first
                | rfl
                | (exfalso; omega)
                | (exfalso; rename_i k hk _; cases k <;> simp [strTag] at hk <;> omega)
                | (exfalso; rename_i k hk _ _; cases k <;> simp [strTag] at hk <;> omega)
            | frame _ _ items q _ _ _ h3 => rw [hc] at h3; simp at h3
            | cut _ _ items q n _ _ h3 => rw [hc] at h3; simp at h3
            | member _ _ items x rest c' h' _ _ _ h3 => rw [hc] at h3; simp at h3
      · rw [universalContent_leaf_err D _ h c (by omega) (by omega)]
        constructor
        · exact .leaf d h c e hcls
        · intro hh
          cases hh with
          | leaf _ _ _ _ _ hL => exact hL
          | frame _ _ items q _ _ h3 => omega
          | cut _ _ items q n _ h3 => omega
          | member _ _ items x rest c' h' _ _ h3 => omega
    · simp only [hcls, ne_eq, not_false_eq_true, if_true, reduceCtorEq, false_iff]
      intro hh
      cases hh with
      | leaf _ _ _ _ h1 => exact hcls h1
      | frame _ _ items q _ h1 => exact hcls h1
      | cut _ _ items q n h1 => exact hcls h1
      | member _ _ items x rest c' h' _ h1 => exact hcls h1

end Verif
