import Verif.Lemmas.Denote
import Verif.Lemmas.Nodes
import Verif.Lemmas.Returned
import Verif.Visit
import Verif.Tests
/-!
# `BerObject::try_from(Any)`: C56
-/
namespace Verif
open Outcome Spec

/-- C56 as claimed: `try_from` on the `Any` read by `parse_ber_any` gives what `parse_ber` gives. -/
def C56Statement (D : Deps) : Prop :=
  ∀ (i rem : Bytes) (a : Any), parseBerAny i = .ok (rem, a) →
    ∀ o, parseBer D i = .ok (rem, o) → objectTryFromAny D a = .ok o

theorem parseBer_of_any {D : Deps} {i rem : Bytes} {a : Any} (h : parseBerAny i = .ok (rem, a)) :
    parseBer D i = liftRes (objectFromAny D maxRecursion a) >>? fun o => .ok (rem, o) := by
  unfold parseBer parseBerRecursive parseBerAnyR
  rw [if_neg (by decide), show anyFromBer i = .ok (rem, a) from h]
  rfl

theorem tryFromAny_definite (D : Deps) (a : Any) (hl : a.header.length = .definite a.data.length) :
    objectTryFromAny D a =
      if maxObjectSize < a.data.length then .err .invalidLength
      else (objectFromAny D maxRecursion
        ⟨Header.new .universal a.header.constructed a.header.tag a.header.length, a.data⟩).map
          fun o => .mk a.header o.content := by
  have h := berReadElementContentAs_definite D a.header.tag a.data.length a.header.constructed
    maxRecursion a.data [] rfl
  rw [List.append_nil] at h
  rw [objectTryFromAny, hl, h]
  split
  · rfl
  · cases objectFromAny D maxRecursion _ <;> rfl

/-- C56: for definite lengths of at most 2^32 - 1 octets, the universal class and the types with a
content variant, `try_from` succeeds exactly when `parse_ber` does, with the same object; otherwise
they report the same error.  Missing: indefinite lengths, other classes, unassigned universal
numbers, larger objects (see below). -/
theorem C56_universal_partial (D : Deps) (i rem : Bytes) (a : Any)
    (h : parseBerAny i = .ok (rem, a)) (hl : a.header.length ≠ .indefinite)
    (hs : a.data.length ≤ maxObjectSize) (hcls : a.header.cls = .universal)
    (hk : ¬ (a.header.tag ∈ [8, 9, 11, 14, 15, 29] ∨ 30 < a.header.tag)) :
    parseBer D i = liftRes (objectTryFromAny D a) >>? fun o => .ok (rem, o) := by
  obtain ⟨e, rfl, hF⟩ := anyFromBer_framed.1 h
  have hl' : a.header.length = .definite a.data.length := by
    cases hL : a.header.length with
    | indefinite => exact absurd hL hl
    | definite n => rw [framed_definite_length hF n hL]
  rw [parseBer_of_any h, tryFromAny_definite D a hl', if_neg (by omega)]
  congr 2
  obtain ⟨hd, c⟩ := a
  exact objectFromAny_new D _ hd c hcls (fun h' => hk (uKind_other.1 h'))

/-- A SEQUENCE holding a BOOLEAN, followed by an octet. -/
example := C56_universal_partial Tests.D0 [0x30, 0x03, 0x01, 0x01, 0xff, 9] [9] _ rfl (by decide) (by decide) rfl (by decide)

/-- C56, the remaining definite lengths: `try_from` does not look at the class, so the contents are
read as those of the universal type with the same number; unassigned numbers give `Unknown` with a
header of the universal class and without identifier octets. -/
theorem C56_class_ignored (D : Deps) (i rem : Bytes) (a : Any) (h : parseBerAny i = .ok (rem, a))
    (hl : a.header.length ≠ .indefinite) (o : BerObject) :
    objectTryFromAny D a = .ok o ↔ a.data.length ≤ maxObjectSize ∧
      ∃ x, o = .mk a.header x ∧ objectFromAny D maxRecursion
        ⟨Header.new .universal a.header.constructed a.header.tag a.header.length, a.data⟩ =
          .ok (.mk (Header.new .universal a.header.constructed a.header.tag a.header.length) x) := by
  obtain ⟨e, rfl, hF⟩ := anyFromBer_framed.1 h
  have hl' : a.header.length = .definite a.data.length := by
    cases hL : a.header.length with
    | indefinite => exact absurd hL hl
    | definite n => rw [framed_definite_length hF n hL]
  rw [tryFromAny_definite D a hl']
  by_cases hs : maxObjectSize < a.data.length
  · rw [if_pos hs]
    constructor
    · intro h; cases h
    · rintro ⟨h, -⟩; omega
  · rw [if_neg hs, map_eq_ok]
    constructor
    · rintro ⟨o', ho', rfl⟩
      refine ⟨by omega, o'.content, rfl, ?_⟩
      rw [ho']
      have := objectFromAny_header ho'
      obtain ⟨h', c'⟩ := o'
      simp only [BerObject.header] at this
      rw [this]; rfl
    · rintro ⟨-, x, rfl, hx⟩
      exact ⟨_, hx, rfl⟩

/-- The contents of a context-specific element [2] are read as those of an INTEGER. -/
example := (C56_class_ignored Tests.D0 [0x82, 0x01, 0x05, 9] [9] _ rfl (by decide) _).1 rfl

/-- C56: `try_from` never succeeds on an `Any` of indefinite length: its data no longer contain the
end-of-contents octets that are looked for again. -/
theorem C56_indefinite_fails (D : Deps) (i rem : Bytes) (a : Any)
    (h : parseBerAny i = .ok (rem, a)) (hl : a.header.length = .indefinite) (o : BerObject) :
    objectTryFromAny D a ≠ .ok o := by
  intro ho
  obtain ⟨r, hr, hr'⟩ := bind_eq_ok.1 (show headerFromBer i >>? _ = .ok (rem, a) from h)
  obtain ⟨s, hs, hs'⟩ := bind_eq_ok.1 hr'
  cases hs'
  obtain ⟨y, hy, -⟩ := map_eq_ok.1 ho
  have hy := mapErr_eq_ok.1 hy
  simp only at hl hy
  rw [hl] at hy
  obtain ⟨z, hz, -⟩ := bind_eq_ok.1
    (show getObjectContent maxRecursion
      (Header.new .universal r.2.constructed r.2.tag .indefinite) s.2 >>? _ = .ok y from hy)
  -- the first reading consumed the data and two more octets
  rw [getObjectContent_congr (h := Header.new .universal _ _ _) (h' := r.2) hl.symm rfl rfl] at hz
  obtain ⟨pre, b, hp, hskip, hc⟩ := getObjectContent_ok hs
  have h2 := skipContent_indef_len hl hskip
  simp only [contentOf, hl, if_true] at hc
  obtain ⟨pre', hp', hr2⟩ := local_getObjectContent _ _ _ _ _ hz
  have e : r.1 = pre' ++ (z.1 ++ (pre.drop (pre.length - 2) ++ s.1)) := by
    rw [hp, ← List.append_assoc pre', ← hp', hc, ← List.append_assoc, List.take_append_drop]
  have h3 := hr2 (z.1 ++ (pre.drop (pre.length - 2) ++ s.1))
  rw [← e, hs] at h3
  have h4 := congrArg List.length (Prod.mk.inj (ok.inj h3)).1
  simp only [List.length_append, List.length_drop] at h4
  omega

/-- C56 is false: the context-specific `82 01 05` is an INTEGER for `try_from`, and `Unknown` for
`parse_ber`. -/
theorem C56_class_counterexample (D : Deps) : ¬ C56Statement D := by
  intro H
  have h := H [0x82, 1, 5] [] _ rfl _ rfl
  have h2 : (.ok .integer : Res CbName) = .ok .unknown :=
    congrArg (Outcome.map fun o : BerObject => cbName o.content) h
  exact absurd h2 (by decide)

/-- C56 is also false within the universal class: the empty SEQUENCE `30 80 00 00`. -/
theorem C56_indefinite_counterexample (D : Deps) :
    ∃ i a o, parseBerAny i = .ok ([], a) ∧ parseBer D i = .ok ([], o) ∧
      a.header.cls = .universal ∧ ∀ o', objectTryFromAny D a ≠ .ok o' :=
  ⟨[0x30, 0x80, 0, 0], _, _, rfl, rfl, rfl,
    C56_indefinite_fails D [0x30, 0x80, 0, 0] [] _ rfl rfl⟩

example : ∃ a, parseBerAny [0x30, 3, 2, 1, 5] = .ok ([], a) ∧ a.header.length ≠ .indefinite ∧
    a.data.length ≤ maxObjectSize ∧ a.header.cls = .universal ∧
    ¬ (a.header.tag ∈ [8, 9, 11, 14, 15, 29] ∨ 30 < a.header.tag) ∧
    ∃ o, objectTryFromAny Tests.D0 a = .ok o :=
  ⟨_, rfl, by decide, by decide, rfl, by decide, _, rfl⟩

end Verif
