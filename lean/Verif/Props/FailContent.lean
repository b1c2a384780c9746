import Verif.Props.FailComb
/-!
# Properties C89 and C90: the functions for contents, and IMPLICIT tags
-/
namespace Verif
open Outcome Spec

/-! ## Delimiting contents -/

theorem getObjectContent_indef_congr {d : Nat} {h h' : Header} (hl : h.length = .indefinite)
    (hl' : h'.length = .indefinite) (hc : h.constructed = h'.constructed) (i : Bytes) :
    getObjectContent d h i = getObjectContent d h' i := by
  have : skipContent d h i = skipContent d h' i := by
    cases d with
    | zero => simp [skipContent]
    | succ d => simp only [skipContent, hl, hl', hc]
  unfold getObjectContent
  rw [this, hl, hl']

theorem indefHeader : BerHeader [0x30, 0x80] ⟨.universal, true, 16, .indefinite, some [0x30]⟩ := by
  obtain ⟨hb, e, H⟩ := (headerFromBer_iff (i := [0x30, 0x80]) (rem := [])).1 rfl
  simp only [List.append_nil] at e
  subst e
  exact H

theorem getObjectContent_delimited {d : Nat} {h : Header} {i rem c : Bytes} :
    getObjectContent d h i = .ok (rem, c) ↔ Delimited h.constructed d h.length i c rem := by
  constructor
  · intro hh
    cases hl : h.length with
    | definite l =>
      obtain ⟨rfl, rfl⟩ := getObjectContent_def_len hl hh
      cases d with
      | zero => simp [getObjectContent, skipContent] at hh
      | succ d => exact .definite d c rem
    | indefinite =>
      have hk : h.constructed = true := by
        cases hk : h.constructed with
        | true => rfl
        | false => cases d <;> simp [getObjectContent, skipContent, hl, hk] at hh
      obtain ⟨es, t, n, rfl, rfl, g1, g2, rfl⟩ := getObjectContent_indef hl hh
      exact .indefinite n es t rem hk g1 g2
  · intro hh
    generalize hL : h.length = L at hh
    cases hh with
    | definite d c rem => exact getObjectContent_definite hL c rem rfl
    | indefinite n es t rem hk hes ht =>
      rw [getObjectContent_indef_congr (h' := ⟨.universal, true, 16, .indefinite, some [0x30]⟩) hL rfl hk]
      exact getObjectContent_complete_indef indefHeader rfl hes ht rem

theorem getObjectContent_err {d : Nat} {h : Header} {i : Bytes} {x : NomErr BerError} :
    getObjectContent d h i = .err x ↔ skipContent d h i = .err x := by
  unfold getObjectContent
  constructor
  · intro h3
    rcases bind_eq_err.1 h3 with h4 | ⟨s, _, h4⟩
    · exact h4
    · dsimp only at h4
      split at h4
      · split at h4 <;> simp at h4
      · simp at h4
  · intro h; rw [h]; rfl

theorem getObjectContent_indef_err {d : Nat} {h : Header} {i : Bytes} {x : NomErr BerError}
    (hl : h.length = .indefinite) (hk : h.constructed = true) :
    getObjectContent (d + 1) h i = .err x ↔ ∃ (es : List Bytes) (q : Bytes), i = es.flatten ++ q ∧
      (∀ e ∈ es, Element LooseEoc LooseEoc d e) ∧ skipElement d q = .err x := by
  rw [getObjectContent_err]
  simp only [skipContent, hl, hk, if_true]
  constructor
  · exact skipLoop_err
  · rintro ⟨es, q, rfl, hes, hq⟩
    exact skipLoop_elements hes q x hq _ (Nat.lt_succ_self _)

theorem skipElement_err_cases {n : Nat} {q : Bytes} {x : NomErr BerError} :
    skipElement n q = .err x ↔ (∃ m, x = .incomplete (.size m) ∧ Cut false n q (.need m)) ∨
      ∃ e, x = .error e ∧ FrameFails n q e := by
  constructor
  · intro h
    rcases skipElement_err h with ⟨m, rfl⟩ | ⟨e, rfl, h'⟩
    · exact .inl ⟨m, rfl, skipElement_incomplete h⟩
    · exact .inr ⟨e, rfl, h'⟩
  · rintro (⟨m, rfl, h⟩ | ⟨e, rfl, h⟩)
    · exact skipElement_cut h
    · exact skipElement_fails h

theorem delimited_len {k : Bool} {d : Nat} {L : Length} {i c rem : Bytes} (h : Delimited k d L i c rem) :
    ∀ l, L = .definite l → c.length = l := by
  cases h <;> simp

/-! ## C89: `parse_ber_content` -/

/-- The part of `ber_read_element_content_as` after the checks of a known length. -/
theorem contentGo_err (D : Deps) (tag : Nat) (k : Bool) (d : Nat) (L : Length) (i : Bytes)
    (x : NomErr BerError) :
    (getObjectContent d (Header.new .universal k tag L) i >>? fun r =>
      liftRes (objectFromAny D d ⟨Header.new .universal k tag L, r.2⟩) >>? fun o =>
        (.ok (r.1, o.content) : IRes BerError Content)) = .err x ↔
    getObjectContent d (Header.new .universal k tag L) i = .err x ∨
    ∃ c rem e, Delimited k d L i c rem ∧ x = .error e ∧ ContentFails D d (Header.new .universal k tag L) c e := by
  constructor
  · intro h
    rcases bind_eq_err.1 h with h1 | ⟨⟨rem, c⟩, h1, h2⟩
    · exact .inl h1
    · rcases bind_eq_err.1 h2 with h3 | ⟨_, _, h3⟩
      · cases ho : objectFromAny D d ⟨Header.new .universal k tag L, c⟩ with
        | err e =>
          simp only [ho, liftRes, mapErr_err, err.injEq] at h3
          exact .inr ⟨c, rem, e, getObjectContent_delimited.1 h1, h3.symm, (objectFromAny_err D d _ c e).1 ho⟩
        | ok _ => simp [ho, liftRes] at h3
        | panic => simp [ho, liftRes] at h3
        | diverge => simp [ho, liftRes] at h3
      · simp at h3
  · rintro (h | ⟨c, rem, e, hD, rfl, hF⟩)
    · rw [h]; rfl
    · rw [(getObjectContent_delimited (h := Header.new .universal k tag L)).2 hD, ok_bind]
      simp only [(objectFromAny_err D d _ c e).2 hF]
      rfl

/-- C89: `parse_ber_content` (and `parse_ber_content2`) accept exactly the inputs that start with delimited
contents within the size limit that stand for a value of the type; the value is that one, and the octets after
the contents remain. -/
theorem C89_ber_ok (D : Deps) (tag d : Nat) (h : Header) (i rem : Bytes) (x : Content) :
    parseBerContent D tag i h d = .ok (rem, x) ↔
      ∃ c, Delimited h.constructed d h.length i c rem ∧ (∀ l, h.length = .definite l → l < 2 ^ 32) ∧
        Denotes D d (Header.new .universal h.constructed tag h.length) c x := by
  have key : (getObjectContent d (Header.new .universal h.constructed tag h.length) i >>? fun r =>
      liftRes (objectFromAny D d ⟨Header.new .universal h.constructed tag h.length, r.2⟩) >>? fun o =>
        (.ok (r.1, o.content) : IRes BerError Content)) = .ok (rem, x) ↔
      ∃ c, Delimited h.constructed d h.length i c rem ∧
        Denotes D d (Header.new .universal h.constructed tag h.length) c x := by
    constructor
    · intro hh
      obtain ⟨⟨r, c⟩, h1, h2⟩ := bind_eq_ok.1 hh
      obtain ⟨o, h3, h4⟩ := bind_eq_ok.1 h2
      simp only [ok.injEq, Prod.mk.injEq] at h4
      obtain ⟨rfl, rfl⟩ := h4
      have hD := getObjectContent_delimited.1 h1
      rw [liftRes_eq_ok] at h3
      refine ⟨c, hD, (objectFromAny_iff D d _ c o.content (delimited_len hD)).1 ?_⟩
      have := objectFromAny_header h3
      simp only at this h3
      rw [h3, ← this, BerObject.eta]
    · rintro ⟨c, hD, hx⟩
      rw [(getObjectContent_delimited (h := Header.new .universal h.constructed tag h.length)).2 hD, ok_bind]
      simp only [(objectFromAny_iff D d (Header.new .universal h.constructed tag h.length) c x
        (delimited_len hD)).2 hx]
      rfl
  unfold parseBerContent berReadElementContentAs
  cases hl : h.length with
  | definite l =>
    rw [hl] at key
    dsimp only
    split
    · rename_i hs
      simp only [reduceCtorEq, false_iff]
      rintro ⟨c, _, h2, _⟩
      have := h2 l rfl
      unfold maxObjectSize at hs
      omega
    · rename_i hs
      split
      · rename_i hlt
        simp only [reduceCtorEq, false_iff]
        rintro ⟨c, h1, _⟩
        cases h1
        simp only [List.length_append] at hlt
        omega
      · rw [key]
        constructor
        · rintro ⟨c, h1, h2⟩
          refine ⟨c, h1, ?_, h2⟩
          intro l' e
          simp only [Length.definite.injEq] at e
          unfold maxObjectSize at hs
          omega
        · rintro ⟨c, h1, _, h2⟩; exact ⟨c, h1, h2⟩
  | indefinite =>
    rw [hl] at key
    dsimp only
    rw [key]
    simp

example := (C89_ber_ok Tests.D0 4 50 (Header.new .contextSpecific false 0 (.definite 2)) [0x01, 0x02, 0x03] [0x03] _).1 rfl

theorem parseBerContent_err (D : Deps) (tag d : Nat) (h : Header) (i : Bytes) (x : NomErr BerError) :
    parseBerContent D tag i h d = .err x ↔
      (∃ n, x = .incomplete (.size n) ∧ ContentsNeeds h.constructed d h.length i n) ∨
      ∃ e, x = .error e ∧ ContentsRejected D tag h.constructed d h.length i e := by
  have key := contentGo_err D tag h.constructed d h.length i x
  unfold parseBerContent berReadElementContentAs
  cases hl : h.length with
  | definite l =>
    rw [hl] at key
    dsimp only
    split
    · rename_i hs
      unfold maxObjectSize at hs
      simp only [err.injEq]
      constructor
      · rintro rfl; exact .inr ⟨_, rfl, .size d l i (by omega)⟩
      · rintro (⟨n, rfl, hN⟩ | ⟨e, rfl, hR⟩)
        · cases hN; omega
        · cases hR with
          | size => rfl
          | depth => omega
          | contents _ _ _ c rem e h1 h2 h3 => have := h1 l rfl; omega
    · rename_i hs
      unfold maxObjectSize at hs
      split
      · rename_i hlt
        simp only [err.injEq, Needed.new]
        rw [if_neg (by omega)]
        constructor
        · rintro rfl; exact .inl ⟨l, rfl, .definite d l i (by omega) hlt⟩
        · rintro (⟨n, rfl, hN⟩ | ⟨e, rfl, hR⟩)
          · cases hN; rfl
          · exfalso
            cases hR with
            | size => omega
            | depth => omega
            | contents _ _ _ c rem e h1 h2 h3 =>
              cases h2
              simp only [List.length_append] at hlt
              omega
      · rename_i hlt
        rw [key]
        have hne : ∀ m, 0 < d → getObjectContent d (Header.new .universal h.constructed tag (.definite l)) i ≠ .err m := by
          intro m hd
          obtain ⟨d, rfl⟩ : ∃ k, d = k + 1 := ⟨d - 1, by omega⟩
          have := getObjectContent_definite (d := d) (hdr := Header.new .universal h.constructed tag (.definite l))
            rfl (i.take l) (i.drop l) (by simp; omega)
          rw [List.take_append_drop] at this
          rw [this]; simp
        constructor
        · rintro (h1 | ⟨c, rem, e, h1, rfl, h2⟩)
          · cases d with
            | zero =>
              simp only [getObjectContent, skipContent, err_bind, err.injEq] at h1
              exact .inr ⟨_, h1.symm, .depth l i (by omega) (by omega)⟩
            | succ d => exact absurd h1 (hne _ (by omega))
          · exact .inr ⟨e, rfl, .contents d _ i c rem e (by intro l' e; simp at e; omega) h1 h2⟩
        · rintro (⟨n, rfl, hN⟩ | ⟨e, rfl, hR⟩)
          · cases hN; omega
          · cases hR with
            | size => omega
            | depth => exact .inl rfl
            | contents _ _ _ c rem e h1 h2 h3 => exact .inr ⟨c, rem, e, h2, rfl, h3⟩
  | indefinite =>
    rw [hl] at key
    dsimp only
    rw [key]
    constructor
    · rintro (h1 | ⟨c, rem, e, h1, rfl, h2⟩)
      · cases d with
        | zero =>
          simp only [getObjectContent, skipContent, err_bind, err.injEq] at h1
          exact .inr ⟨_, h1.symm, .depthIndefinite i⟩
        | succ d =>
          cases hk : h.constructed with
          | false =>
            simp only [getObjectContent, skipContent, Header.new, hk, Bool.false_eq_true, if_false, err_bind,
              err.injEq] at h1
            exact .inr ⟨_, h1.symm, .primitive d i rfl⟩
          | true =>
            rw [hk] at h1
            obtain ⟨es, q, rfl, hes, hq⟩ := (getObjectContent_indef_err rfl rfl).1 h1
            rcases skipElement_err_cases.1 hq with ⟨m, rfl, hc⟩ | ⟨e, rfl, he⟩
            · exact .inl ⟨m, rfl, .inside d es q m rfl hes hc⟩
            · exact .inr ⟨e, rfl, .inside d es q e rfl hes he⟩
      · exact .inr ⟨e, rfl, .contents d _ i c rem e (by simp) h1 h2⟩
    · rintro (⟨n, rfl, hN⟩ | ⟨e, rfl, hR⟩)
      · generalize hL : Length.indefinite = L at hN
        cases hN with
        | definite => simp at hL
        | inside d es q n hk hes hc =>
          left
          exact (getObjectContent_indef_err (h := Header.new .universal h.constructed tag .indefinite) rfl hk).2 ⟨es, q, rfl, hes, skipElement_cut hc⟩
      · generalize hL : Length.indefinite = L at hR
        cases hR with
        | size => simp at hL
        | depth => simp at hL
        | depthIndefinite => exact .inl rfl
        | primitive d i hk => left; simp [getObjectContent, skipContent, Header.new, hk]
        | inside d es q e hk hes he =>
          left
          exact (getObjectContent_indef_err (h := Header.new .universal h.constructed tag .indefinite) rfl hk).2 ⟨es, q, rfl, hes, skipElement_fails he⟩
        | contents _ _ _ c rem e h1 h2 h3 =>
          subst hL
          exact .inr ⟨c, rem, e, h2, rfl, h3⟩

/-- C89: `Err::Error(e)` exactly for the contents specified to be rejected with `e`. -/
theorem C89_ber_rejected_iff (D : Deps) (tag d : Nat) (h : Header) (i : Bytes) (e : BerError) :
    parseBerContent D tag i h d = .err (.error e) ↔
      ContentsRejected D tag h.constructed d h.length i e := by
  rw [parseBerContent_err]
  simp

example := (C89_ber_rejected_iff Tests.D0 1 50 (Header.new .contextSpecific false 0 (.definite 2)) [0x01, 0x02, 0x03] _).1 rfl

/-- C89: `Incomplete(n)` exactly for the contents specified as cut. -/
theorem C89_ber_incomplete_iff (D : Deps) (tag d : Nat) (h : Header) (i : Bytes) (n : Nat) :
    parseBerContent D tag i h d = .err (.incomplete (.size n)) ↔
      ContentsNeeds h.constructed d h.length i n := by
  rw [parseBerContent_err]
  simp

example := (C89_ber_incomplete_iff Tests.D0 4 50 (Header.new .contextSpecific false 0 (.definite 5)) [0x01, 0x02, 0x03] _).1 rfl

/-! ## C89: `parse_der_content` -/

/-- C89: `parse_der_content` accepts exactly contents of known length that follow the rules of DER and stand
for a value.  The limits on size and depth are not applied to a BIT STRING. -/
theorem C89_der_ok (D : Deps) (tag d : Nat) (h : Header) (i rem : Bytes) (x : Content) :
    parseDerContent D tag i h d = .ok (rem, x) ↔
      ∃ c, i = c ++ rem ∧ h.length = .definite c.length ∧ DerRules tag c ∧ (tag = 3 ∨ c.length < 2 ^ 32) ∧
        Denotes D (if tag = 3 then d + 1 else d) (Header.new .universal h.constructed tag h.length) c x := by
  have hbit : ∀ (c : Bytes), derReadElementContentAs D (c ++ rem) 3 (.definite c.length) h.constructed d =
      derReadElementContentAs D (c ++ rem) 3 (.definite c.length) h.constructed (d + 1) := by
    intro c
    rw [derReadElementContentAs_definite _ _ _ _ _ _ _ rfl, derReadElementContentAs_definite _ _ _ _ _ _ _ rfl]
    rw [if_pos (show 3 = Tag.bitString from rfl), if_pos (show 3 = Tag.bitString from rfl)]
  have hmain : ∀ c : Bytes, derReadElementContentAs D (c ++ rem) tag (.definite c.length) h.constructed d = .ok (rem, x) ↔
      DerRules tag c ∧ (tag = 3 ∨ c.length < 2 ^ 32) ∧
        Denotes D (if tag = 3 then d + 1 else d) (Header.new .universal h.constructed tag (.definite c.length)) c x := by
    intro c
    by_cases ht : tag = 3
    · subst ht
      rw [if_pos rfl, hbit, derReadElementContentAs_iff]
      simp
    · rw [if_neg ht]
      cases d with
      | zero =>
        constructor
        · intro hh
          exfalso
          rw [derReadElementContentAs_definite _ _ _ _ _ _ _ rfl, if_neg (show ¬ tag = Tag.bitString from ht)] at hh
          obtain ⟨_, _, h2⟩ := bind_eq_ok.1 hh
          split at h2
          · simp at h2
          · simp [objectFromAny, liftRes] at h2
        · rintro ⟨_, _, h3⟩; cases h3
      | succ d =>
        rw [derReadElementContentAs_iff]
        unfold maxObjectSize
        constructor
        · rintro ⟨h1, h2, h3⟩; exact ⟨h1, h2.imp id (by omega), h3⟩
        · rintro ⟨h1, h2, h3⟩; exact ⟨h1, h2.imp id (by omega), h3⟩
  unfold parseDerContent
  constructor
  · intro hh
    obtain ⟨l, c, h1, rfl, h3, h4⟩ := derReadElementContentAs_ok hh
    subst h3
    rw [h1] at hh ⊢
    exact ⟨c, rfl, rfl, (hmain c).1 hh⟩
  · rintro ⟨c, rfl, h1, h2⟩
    rw [h1] at h2 ⊢
    exact (hmain c).2 h2

example := (C89_der_ok Tests.D0 2 50 (Header.new .contextSpecific false 0 (.definite 2)) [0x01, 0x02, 0x03] [0x03] _).1 rfl

/-- C89: the errors of `parse_der_content`. -/
theorem C89_der_rejected_iff (D : Deps) (tag d : Nat) (h : Header) (i : Bytes) (e : BerError) :
    parseDerContent D tag i h d = .err (.error e) ↔
      (h.length = .indefinite ∧ e = .indefiniteLengthUnexpected) ∨
      ∃ c rest, i = c ++ rest ∧ h.length = .definite c.length ∧ DerFails D d tag h.constructed c rest e := by
  unfold parseDerContent
  cases hl : h.length with
  | indefinite =>
    simp only [derReadElementContentAs, Length.definite?, liftRes, mapErr_err, err_bind, err.injEq,
      NomErr.error.injEq, true_and, reduceCtorEq, false_and, and_false, exists_false, or_false]
    exact eq_comm
  | definite l =>
    simp only [reduceCtorEq, false_and, false_or, Length.definite.injEq]
    by_cases hlt : i.length < l
    · rw [derReadElementContentAs_short hlt]
      simp only [err.injEq, reduceCtorEq, false_iff]
      rintro ⟨c, rest, rfl, rfl, _⟩
      simp only [List.length_append] at hlt
      omega
    · have hspl : i = i.take l ++ i.drop l := (List.take_append_drop _ _).symm
      have hlen : l = (i.take l).length := by simp; omega
      constructor
      · intro hh
        rw [hspl] at hh
        conv at hh => lhs; arg 4; rw [hlen]
        rcases derReadElementContentAs_err.1 hh with ⟨_, _, _, _, h5⟩ | ⟨e', h5, h6⟩
        · simp at h5
        · simp only [NomErr.error.injEq] at h5
          subst h5
          exact ⟨_, _, hspl, hlen, h6⟩
      · rintro ⟨c, rest, rfl, rfl, h6⟩
        exact derReadElementContentAs_err.2 (.inr ⟨e, rfl, h6⟩)

example := (C89_der_rejected_iff Tests.D0 1 50 (Header.new .contextSpecific false 0 (.definite 1)) [0x01, 0x02, 0x03] _).1 rfl

/-- C89: `Incomplete` from `parse_der_content`: the whole length of contents that are cut; or the first octet
of an empty BIT STRING at the end of the input. -/
theorem C89_der_incomplete_iff (D : Deps) (tag d : Nat) (h : Header) (i : Bytes) (n : Nat) :
    parseDerContent D tag i h d = .err (.incomplete (.size n)) ↔
      (h.length = .definite n ∧ i.length < n) ∨
      (tag = 3 ∧ h.constructed = false ∧ i = [] ∧ h.length = .definite 0 ∧ n = 1) := by
  unfold parseDerContent
  cases hl : h.length with
  | indefinite => simp [derReadElementContentAs, Length.definite?, liftRes]
  | definite l =>
    simp only [Length.definite.injEq]
    by_cases hlt : i.length < l
    · rw [derReadElementContentAs_short hlt]
      simp only [err.injEq, NomErr.incomplete.injEq, Needed.size.injEq]
      constructor
      · rintro rfl; exact .inl ⟨rfl, hlt⟩
      · rintro (⟨h1, _⟩ | ⟨_, _, rfl, rfl, _⟩)
        · exact h1
        · simp at hlt
    · have hspl : i = i.take l ++ i.drop l := (List.take_append_drop _ _).symm
      have hlen : l = (i.take l).length := by simp; omega
      constructor
      · intro hh
        rw [hspl] at hh
        conv at hh => lhs; arg 4; rw [hlen]
        rcases derReadElementContentAs_err.1 hh with ⟨h1, h2, h3, h4, h5⟩ | ⟨e', h5, h6⟩
        · simp only [NomErr.incomplete.injEq, Needed.size.injEq] at h5
          right
          refine ⟨h1, h2, ?_, ?_, h5⟩
          · rw [hspl, h3, h4]; rfl
          · rw [hlen, h3]; rfl
        · simp at h5
      · rintro (⟨rfl, h1⟩ | ⟨rfl, h2, rfl, rfl, rfl⟩)
        · omega
        · have := (derReadElementContentAs_err (D := D) (d := d) (tag := 3) (k := h.constructed) (c := [])
            (rest := []) (x := .incomplete (.size 1))).2 (.inl ⟨rfl, h2, rfl, rfl, rfl⟩)
          exact this

example := (C89_der_incomplete_iff Tests.D0 2 50 (Header.new .contextSpecific false 0 (.definite 5)) [0x01, 0x02, 0x03] _).1 rfl

/-- C89: `Err::Failure` and `Incomplete(Unknown)` are never answered, and there is always an answer (C03). -/
theorem C89_answers (D : Deps) (tag d : Nat) (h : Header) (i : Bytes) (x : NomErr BerError)
    (hx : parseBerContent D tag i h d = .err x ∨ parseDerContent D tag i h d = .err x) :
    (∃ n, x = .incomplete (.size n)) ∨ ∃ e, x = .error e := by
  rcases hx with hx | hx
  · rcases (parseBerContent_err D tag d h i x).1 hx with ⟨n, h1, _⟩ | ⟨e, h1, _⟩
    · exact .inl ⟨n, h1⟩
    · exact .inr ⟨e, h1⟩
  · unfold parseDerContent at hx
    cases hl : h.length with
    | indefinite =>
      rw [hl] at hx
      simp only [derReadElementContentAs, Length.definite?, liftRes, mapErr_err, err_bind, err.injEq] at hx
      exact .inr ⟨_, hx.symm⟩
    | definite l =>
      rw [hl] at hx
      by_cases hlt : i.length < l
      · rw [derReadElementContentAs_short hlt] at hx
        simp only [err.injEq] at hx
        exact .inl ⟨_, hx.symm⟩
      · have hspl : i = i.take l ++ i.drop l := (List.take_append_drop _ _).symm
        have hlen : l = (i.take l).length := by simp; omega
        rw [hspl] at hx
        conv at hx => lhs; arg 4; rw [hlen]
        rcases derReadElementContentAs_err.1 hx with ⟨_, _, _, _, h5⟩ | ⟨e', h5, _⟩
        · exact .inl ⟨_, h5⟩
        · exact .inr ⟨_, h5⟩

example : Delimited true 3 .indefinite [0x02, 0x01, 0x05, 0x00, 0x00, 0xaa] [0x02, 0x01, 0x05] [0xaa] :=
  (getObjectContent_delimited (h := Header.new .universal true 16 .indefinite)).1 rfl
example : ContentsRejected Tests.D0 16 false 50 .indefinite [0x02, 0x01] .constructExpected :=
  .primitive 49 _ rfl
example : ContentsNeeds false 50 (.definite 3) [0x02, 0x01] 3 := .definite _ _ _ (by decide) (by decide)
example : parseBerContent Tests.D0 4 [0x01, 0x02, 0x03] (Header.new .contextSpecific false 0 (.definite 2)) 50 =
    .ok ([0x03], .octetString [0x01, 0x02]) := rfl

/-! ## C90: IMPLICIT tags -/

/-- C90 in full: `[tag] IMPLICIT T`, read with `parse_ber_tagged_implicit_g(tag, parse_ber_content(T))`, is
accepted when its contents stand for a value of `T`. -/
def C90Statement : Prop :=
  ∀ (D : Deps) (tag t : Nat) (e c rest : Bytes) (h : Header) (x : Content), Framed 50 e h c → h.tag = tag →
    h.cls ≠ .universal → e.length < 2 ^ 32 →
    Denotes D 50 (Header.new .universal h.constructed t h.length) c x →
    taggedImplicitG .ber tag (parseBerContent D t) (e ++ rest) = .ok (rest, x)

/-- C90 is false: `[0] IMPLICIT SEQUENCE` of indefinite length, `a0 80 02 01 05 00 00`, is answered with
`Incomplete(1)`: the end-of-contents octets have been removed, then they are looked for again. -/
theorem C90_indefinite_counterexample : ¬ C90Statement := by
  intro hS
  have hF : Framed 50 [0xa0, 0x80, 0x02, 0x01, 0x05, 0x00, 0x00]
      ⟨.contextSpecific, true, 0, .indefinite, some [0xa0]⟩ [0x02, 0x01, 0x05] := by
    have h1 : anyFromBer [0xa0, 0x80, 0x02, 0x01, 0x05, 0x00, 0x00] =
      .ok ([], ⟨⟨.contextSpecific, true, 0, .indefinite, some [0xa0]⟩, [0x02, 0x01, 0x05]⟩) := rfl
    obtain ⟨e, h2, h3⟩ := anyFromBer_framed.1 h1
    simp only [List.append_nil] at h2
    rw [h2]
    exact h3
  have hD : Denotes Tests.D0 50 (Header.new .universal true 16 .indefinite) [0x02, 0x01, 0x05]
      (.sequence [.mk ⟨.universal, false, 2, .definite 1, some [2]⟩ (.integer [5])]) :=
    (objectFromAny_iff Tests.D0 50 _ _ _ (by simp [Header.new])).1 rfl
  have := hS Tests.D0 0 16 _ _ [] _ _ hF rfl (by decide) (by decide) hD
  have h2 : taggedImplicitG .ber 0 (parseBerContent Tests.D0 16) ([0xa0, 0x80, 0x02, 0x01, 0x05, 0x00, 0x00] ++ []) =
    .err (.incomplete (.size 1)) := rfl
  rw [h2] at this
  simp at this

/-- C90, what holds for BER: for a known length, the values are those of the type, and the errors those of its
contents.  Missing: indefinite lengths, which are never accepted (C90_indefinite_refused). -/
theorem C90_definite_partial (D : Deps) (tag t : Nat) (i rem c : Bytes) (h : Header)
    (hF : FramedBy .ber i rem h c) (ht : h.tag = tag) (hl : h.length = .definite c.length) :
    (∀ rem' x, taggedImplicitG .ber tag (parseBerContent D t) i = .ok (rem', x) ↔
      rem' = rem ∧ c.length < 2 ^ 32 ∧ Denotes D 50 (Header.new .universal h.constructed t h.length) c x) ∧
    (∀ y, taggedImplicitG .ber tag (parseBerContent D t) i = .err y ↔
      (2 ^ 32 ≤ c.length ∧ y = .error .invalidLength) ∨
      (c.length < 2 ^ 32 ∧ ∃ e, y = .error e ∧
        ContentFails D 50 (Header.new .universal h.constructed t h.length) c e)) := by
  have hg := C40_implicit_partial (E := BerError) .ber tag (parseBerContent D t) i rem c h hF
  rw [if_neg (by simpa using ht)] at hg
  have hc := berReadElementContentAs_definite D t c.length h.constructed 50 c [] rfl
  rw [List.append_nil] at hc
  have he : parseBerContent D t c h 50 =
      if maxObjectSize < c.length then .err (.error .invalidLength)
      else liftRes (objectFromAny D 50 ⟨Header.new .universal h.constructed t h.length, c⟩) >>? fun o =>
        .ok ([], o.content) := by
    unfold parseBerContent
    rw [hl]
    exact hc
  rw [hg, he]
  by_cases hs : maxObjectSize < c.length
  · rw [if_pos hs]
    unfold maxObjectSize at hs
    constructor
    · intro rem' x
      simp only [err_bind, reduceCtorEq, false_iff]
      omega
    · intro y
      simp only [err_bind, err.injEq]
      constructor
      · rintro rfl; exact .inl ⟨by omega, rfl⟩
      · rintro (⟨_, rfl⟩ | ⟨h1, _⟩)
        · rfl
        · omega
  · rw [if_neg hs]
    unfold maxObjectSize at hs
    have hlen : ∀ L, (Header.new .universal h.constructed t h.length).length = .definite L → c.length = L := by
      intro L hL
      rw [show (Header.new .universal h.constructed t h.length).length = h.length from rfl, hl] at hL
      simpa using hL
    constructor
    · intro rem' x
      rw [← objectFromAny_iff D 50 _ c x hlen]
      constructor
      · intro hh
        obtain ⟨⟨r, v⟩, h1, h2⟩ := bind_eq_ok.1 hh
        obtain ⟨o, h3, h4⟩ := bind_eq_ok.1 h1
        simp only [ok.injEq, Prod.mk.injEq] at h2 h4
        obtain ⟨rfl, rfl⟩ := h2
        rw [liftRes_eq_ok] at h3
        have := objectFromAny_header h3
        refine ⟨rfl, by omega, ?_⟩
        simp only at this
        rw [h3, ← this, ← h4.2, BerObject.eta]
      · rintro ⟨rfl, _, h1⟩
        rw [h1]
        rfl
    · intro y
      constructor
      · intro hh
        refine .inr ⟨by omega, ?_⟩
        cases ho : objectFromAny D 50 ⟨Header.new .universal h.constructed t h.length, c⟩ with
        | err e =>
          simp only [ho, liftRes, mapErr_err, err_bind, err.injEq] at hh
          exact ⟨e, hh.symm, (objectFromAny_err D 50 _ c e).1 ho⟩
        | ok _ => simp [ho, liftRes] at hh
        | panic => simp [ho, liftRes] at hh
        | diverge => simp [ho, liftRes] at hh
      · rintro (⟨h1, _⟩ | ⟨_, e, rfl, h1⟩)
        · omega
        · rw [(objectFromAny_err D 50 _ c e).2 h1]
          rfl

example := ((C90_definite_partial Tests.D0 2 2 [0x82, 0x03, 0x01, 0x00, 0x01, 9] [9] _ _ ((frame_iff (E := BerError)).1 rfl)
  rfl rfl).1 [9] _).1 rfl

/-- C90: an element of indefinite length is never accepted under an IMPLICIT tag, whatever the type; the
answer is `Incomplete` or `InvalidTag`. -/
theorem C90_indefinite_refused (D : Deps) (tag t : Nat) (i rem c : Bytes) (h : Header)
    (hF : FramedBy .ber i rem h c) (ht : h.tag = tag) (hl : h.length = .indefinite) :
    (∃ n, taggedImplicitG .ber tag (parseBerContent D t) i = .err (.incomplete (.size n))) ∨
      taggedImplicitG .ber tag (parseBerContent D t) i = .err (.error .invalidTag) := by
  rw [C40_implicit_partial (E := BerError) .ber tag (parseBerContent D t) i rem c h hF, if_neg (by simpa using ht)]
  obtain ⟨e, _, hF⟩ := hF
  cases hF with
  | definite hb c h H hd => rw [hl] at hd; simp at hd
  | indefinite m hb es u h hm H _ hes hu =>
    have h2 := berHeader_nonempty hu.choose_spec.1
    have hq : u.take (u.length - 2) ++ u.drop (u.length - 2) = u := List.take_append_drop _ _
    obtain ⟨a, ha⟩ := looseEoc_prefix hu hq (by
      intro h0
      have := congrArg List.length h0
      simp only [List.length_drop, List.length_nil] at this
      omega)
    have hc : (es.flatten ++ u).take ((es.flatten ++ u).length - 2) = es.flatten ++ u.take (u.length - 2) := by
      rw [List.take_append]
      simp only [List.length_append]
      rw [List.take_of_length_le (by omega)]
      congr 2
      omega
    have hn : m + 1 = 49 := by omega
    have hs : skipElement 49 (u.take (u.length - 2)) = .err a.toErr :=
      skipElement_cut (.header 49 _ a (by simp) ha.weaken)
    have hg : parseBerContent D t (es.flatten ++ u.take (u.length - 2)) h 50 = .err a.toErr := by
      have := (getObjectContent_indef_err (d := 49) (h := Header.new .universal h.constructed t .indefinite)
        (i := es.flatten ++ u.take (u.length - 2)) (x := a.toErr) rfl (H.indef_constructed hl)).2
        ⟨es, _, rfl, by rw [← hn]; exact hes, hs⟩
      unfold parseBerContent berReadElementContentAs
      rw [hl]
      simp only
      rw [this]
      rfl
    rw [hc, hg]
    cases a with
    | need n => exact .inl ⟨n, rfl⟩
    | badTag => exact .inr rfl

example := C90_indefinite_refused Tests.D0 2 16 [0xa2, 0x80, 0x05, 0x00, 0, 0, 9] [9] _ _ ((frame_iff (E := BerError)).1 rfl)
  rfl rfl

/-- C90: with the usual end-of-contents octets the answer is `Incomplete(1)`, though the element is complete:
a reader of a stream waits forever. -/
theorem C90_indefinite_waits (D : Deps) (t : Nat) (hb : Bytes) (es : List Bytes) (h : Header) (rest : Bytes)
    (H : BerHeader hb h) (hl : h.length = .indefinite) (hes : ∀ e ∈ es, Element LooseEoc LooseEoc 49 e) :
    taggedImplicitG .ber h.tag (parseBerContent D t) (hb ++ (es.flatten ++ [0, 0]) ++ rest) =
      .err (.incomplete (.size 1)) := by
  have hE : LooseEoc [0, 0] := looseEoc_of_isEoc _ rfl
  have hF := Framed.indefinite 48 hb es [0, 0] h (n := 50) rfl H hl hes hE
  have hc : (es.flatten ++ [0, 0]).take ((es.flatten ++ [0, 0]).length - 2) = es.flatten ++ ([] : Bytes) := by
    have : (es.flatten ++ [0, 0]).length - 2 = es.flatten.length := by
      rw [List.length_append]; rfl
    rw [this, List.take_left, List.append_nil]
  rw [hc] at hF
  rw [C40_implicit_partial (E := BerError) .ber h.tag (parseBerContent D t) _ rest _ h ⟨_, rfl, hF⟩,
    if_neg (by simp)]
  have hs : skipElement 49 [] = .err (.incomplete (.size 1)) := rfl
  have := (getObjectContent_indef_err (d := 49) (h := Header.new .universal h.constructed t .indefinite)
    (i := es.flatten ++ []) (x := .incomplete (.size 1)) rfl (H.indef_constructed hl)).2 ⟨es, [], rfl, hes, hs⟩
  have hg : parseBerContent D t (es.flatten ++ []) h 50 = .err (.incomplete (.size 1)) := by
    unfold parseBerContent berReadElementContentAs
    rw [hl]
    simp only
    rw [this]
    rfl
  rw [hg]
  rfl

example := C90_indefinite_waits Tests.D0 16 [0xa2, 0x80] [[0x05, 0x00]] _ [9] (berHeader_read rfl) rfl (by
  simp only [List.forall_mem_cons, List.not_mem_nil, false_imp_iff, implies_true, and_true]
  exact element_null)

/-- C90: the DER functions under an IMPLICIT tag; `parse_der_content` sees only the contents octets, so an empty
BIT STRING is answered with `Incomplete(1)`. -/
theorem C90_der (D : Deps) (tag t : Nat) (i rem c : Bytes) (h : Header)
    (hF : FramedBy .der i rem h c) (ht : h.tag = tag) :
    (∀ rem' x, taggedImplicitG .der tag (parseDerContent D t) i = .ok (rem', x) ↔
      rem' = rem ∧ DerRules t c ∧ (t = 3 ∨ c.length < 2 ^ 32) ∧
        Denotes D 50 (Header.new .universal h.constructed t h.length) c x) ∧
    (∀ y, taggedImplicitG .der tag (parseDerContent D t) i = .err y ↔
      (t = 3 ∧ h.constructed = false ∧ c = [] ∧ y = .incomplete (.size 1)) ∨
      ∃ e, y = .error e ∧ DerFails D 50 t h.constructed c [] e) := by
  have hg := C40_implicit_partial (E := BerError) .der tag (parseDerContent D t) i rem c h hF
  rw [if_neg (by simpa using ht)] at hg
  have hl : h.length = .definite c.length := by obtain ⟨_, _, _, hl⟩ := hF; exact hl
  rw [hg]
  have he : parseDerContent D t c h 50 = derReadElementContentAs D (c ++ []) t (.definite c.length) h.constructed 50 := by
    unfold parseDerContent
    rw [hl, List.append_nil]
  constructor
  · intro rem' x
    have h1 := derReadElementContentAs_iff (D := D) (d := 49) (tag := t) (c := h.constructed) (pre := c) (rem := [])
      (v := x)
    rw [hl]
    constructor
    · intro hh
      obtain ⟨⟨r, v⟩, h2, h3⟩ := bind_eq_ok.1 hh
      simp only [ok.injEq, Prod.mk.injEq] at h3
      obtain ⟨rfl, rfl⟩ := h3
      rw [he] at h2
      obtain ⟨l, pre, g1, g2, g3, _⟩ := derReadElementContentAs_ok h2
      have hr : r = [] := by
        have := congrArg List.length g2
        simp only [Length.definite.injEq] at g1
        simp only [List.length_append, List.length_nil] at this
        exact List.length_eq_zero_iff.1 (by omega)
      subst hr
      obtain ⟨g4, g5, g6⟩ := h1.1 h2
      exact ⟨rfl, g4, g5.imp id (by unfold maxObjectSize; omega), g6⟩
    · rintro ⟨rfl, g4, g5, g6⟩
      rw [he, h1.2 ⟨g4, g5.imp id (by unfold maxObjectSize; omega), g6⟩]
      rfl
  · intro y
    have h1 := derReadElementContentAs_err (D := D) (d := 50) (tag := t) (k := h.constructed) (c := c) (rest := [])
      (x := y)
    simp only [true_and] at h1
    rw [← h1, ← he]
    constructor
    · intro hh
      rcases bind_eq_err.1 hh with h2 | ⟨_, _, h2⟩
      · exact h2
      · simp at h2
    · intro hh; rw [hh]; rfl

example : taggedImplicitG .ber 2 (parseBerContent Tests.D0 2) [0x82, 0x03, 0x01, 0x00, 0x01, 0xaa] =
    .ok ([0xaa], .integer [0x01, 0x00, 0x01]) := rfl
example : taggedImplicitG .der 1 (parseDerContent Tests.D0 3) [0x81, 0x00, 0xaa] =
    .err (.incomplete (.size 1)) := rfl
example : taggedImplicitG .ber 0 (parseBerContent Tests.D0 16) [0xa0, 0x80, 0x1f, 0x00, 0x00] =
    .err (.error .invalidTag) := rfl

end Verif
