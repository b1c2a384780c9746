import Verif.Props.AnyTag
import Verif.Props.Any
import Verif.Lemmas.DerDenote
/-!
# The functions for one type and the functions for any type: C116
-/
namespace Verif
open Outcome Spec

/-- C116: where the next element has the universal class, the tag `t` and a length within the limit — or where there is
no readable header at all — `parse_der` and `parse_der_with_tag(_, t)` give the same answer: the same object, the same
error, the same need for more octets. -/
theorem C116_der (D : Deps) (hT : TimesKnown D) (t : Nat) (i : Bytes)
    (hh : ∀ hb x h, i = hb ++ x → DerHeader hb h → h.cls = .universal ∧ h.tag = t ∧
      ∀ l, h.length = .definite l → l < 2 ^ 32) :
    parseDer D i = parseDerWithTag D t i := by
  unfold parseDer parseDerRecursive parseDerWithTag
  cases e : headerFromDer i with
  | err _ => rfl
  | panic => rfl
  | diverge => rfl
  | ok v =>
    obtain ⟨r, h⟩ := v
    obtain ⟨hb, e1, e2⟩ := headerFromDer_iff.1 e
    obtain ⟨c1, c2, c3⟩ := hh hb r h e1 e2
    have nu := noUnk_derReadElementContentAs hT r h.tag h.length h.constructed maxRecursion
    have key : derReadElementContentRecursive D r h maxRecursion =
        (derReadElementContentAs D r h.tag h.length h.constructed maxRecursion >>? fun s =>
          .ok (s.1, .mk h s.2)) := by
      unfold derReadElementContentRecursive
      rw [if_neg (by simp [c1])]
      revert nu
      generalize derReadElementContentAs D r h.tag h.length h.constructed maxRecursion = z
      intro nu
      cases z with
      | ok v => rfl
      | panic => rfl
      | diverge => rfl
      | err e =>
        cases e with
        | incomplete n => rfl
        | error k => cases k <;> first | rfl | exact absurd rfl (nu _)
        | failure k => rfl
    simp only [ok_bind, Header.assertTag, c2, if_true, liftRes]
    rw [c2] at key
    cases hl : h.length with
    | indefinite => simp only [hl] at key ⊢; exact key
    | definite l =>
      have := c3 l hl
      simp only [hl] at key ⊢
      rw [if_neg (by simp only [maxObjectSize]; omega)]
      exact key

/-- The header is part of the answer. -/
example : parseDer Tests.D0 [0x02, 0x01, 0x05, 0x07] = parseDerWithTag Tests.D0 2 [0x02, 0x01, 0x05, 0x07] ∧
    parseDer Tests.D0 [0x01, 0x01, 0x05] = .err (.error (.derConstraintFailed .invalidBoolean)) ∧
    parseDerWithTag Tests.D0 1 [0x01, 0x01, 0x05] = .err (.error (.derConstraintFailed .invalidBoolean)) := ⟨rfl, rfl, rfl⟩

example : ∀ hb x h, [0x02, 0x01, 0x05, 0x07] = hb ++ x → DerHeader hb h → h.cls = .universal ∧ h.tag = 2 ∧
    ∀ l, h.length = .definite l → l < 2 ^ 32 := by
  intro hb x h e1 e2
  have := headerFromDer_iff.2 ⟨hb, e1, e2⟩
  have e : headerFromDer [0x02, 0x01, 0x05, 0x07] =
    .ok ([0x05, 0x07], Tests.h .universal false 2 1 [0x02]) := rfl
  rw [e] at this
  simp only [ok.injEq, Prod.mk.injEq] at this
  obtain ⟨-, rfl⟩ := this
  exact ⟨rfl, rfl, fun l hl => by simp [Tests.h] at hl; omega⟩

/-- C116: where the next element has the universal class, the tag `t` of a type that the library reads, and a length that
is indefinite or within both the limit and what the input holds — or where there is no readable header at all —
`parse_ber` and `parse_ber_with_tag(_, t)` give the same answer. -/
theorem C116_ber (D : Deps) (t : Nat) (ht : t ∉ [8, 9, 11, 14, 15, 29] ∧ t ≤ 30) (i : Bytes)
    (hh : ∀ hb x h, i = hb ++ x → BerHeader hb h → h.cls = .universal ∧ h.tag = t ∧
      ∀ l, h.length = .definite l → l < 2 ^ 32 ∧ l ≤ x.length) :
    parseBer D i = parseBerWithTag D t i := by
  unfold parseBer parseBerRecursive parseBerAnyR anyFromBer parseBerWithTag
  rw [if_neg (by decide)]
  cases e : headerFromBer i with
  | err _ => rfl
  | panic => rfl
  | diverge => rfl
  | ok v =>
    obtain ⟨r, h⟩ := v
    obtain ⟨hb, e1, e2⟩ := headerFromBer_iff.1 e
    obtain ⟨c1, c2, c3⟩ := hh hb r h e1 e2
    have hk : uKind h.tag ≠ .other := by
      rw [Ne, uKind_other, c2]
      rintro (h' | h')
      · exact ht.1 h'
      · omega
    have hg : getObjectContent maxRecursion h r =
        getObjectContent maxRecursion (Header.new .universal h.constructed h.tag h.length) r := by
      unfold getObjectContent
      rfl
    have key : berReadElementContentAs D r h.tag h.length h.constructed maxRecursion =
        (getObjectContent maxRecursion (Header.new .universal h.constructed h.tag h.length) r >>? fun s =>
          liftRes (objectFromAny D maxRecursion ⟨Header.new .universal h.constructed h.tag h.length, s.2⟩) >>? fun o =>
            .ok (s.1, o.content)) := by
      unfold berReadElementContentAs
      cases hl : h.length with
      | indefinite => rfl
      | definite l =>
        have := c3 l hl
        dsimp only
        rw [if_neg (by simp only [maxObjectSize]; omega), if_neg (by omega)]
    have ha : h.assertTag t = .ok () := by simp [Header.assertTag, c2]
    simp only [ok_bind, ha, liftRes, mapErr_ok, key, hg]
    cases getObjectContent maxRecursion (Header.new .universal h.constructed h.tag h.length) r with
    | err _ => rfl
    | panic => rfl
    | diverge => rfl
    | ok s =>
      simp only [ok_bind]
      rw [objectFromAny_new D _ h s.2 c1 hk]
      cases objectFromAny D maxRecursion ⟨Header.new .universal h.constructed h.tag h.length, s.2⟩ <;> rfl

theorem parseBer_cut (D : Deps) (l : Nat) (hb x : Bytes) (h : Header) (hH : BerHeader hb h)
    (hl : h.length = .definite l) (hx : x.length < l) :
    parseBer D (hb ++ x) = .err (.incomplete (.size (l - x.length))) := by
  have e : headerFromBer (hb ++ x) = .ok (x, h) := headerFromBer_iff.2 ⟨hb, rfl, hH⟩
  unfold parseBer parseBerRecursive parseBerAnyR anyFromBer
  rw [if_neg (by decide), e]
  have hsk : skipContent (49 + 1) h x = .err (.incomplete (.size (l - x.length))) := by
    simp only [skipContent, hl]
    rw [if_neg (by omega), takeStreaming, if_pos hx]
    simp only [err_bind, Needed.new]
    rw [if_neg (by omega)]
  simp only [ok_bind, getObjectContent]
  rw [show maxRecursion = 49 + 1 from rfl, hsk]
  rfl

theorem parseDerWithTag_cut (D : Deps) (t l : Nat) (hb x : Bytes) (h : Header) (hH : DerHeader hb h)
    (ht : h.tag = t) (hl : h.length = .definite l) (hx : x.length < l) :
    parseDerWithTag D t (hb ++ x) = .err (.incomplete (.size l)) := by
  have e : headerFromDer (hb ++ x) = .ok (x, h) := headerFromDer_iff.2 ⟨hb, rfl, hH⟩
  unfold parseDerWithTag derReadElementContentAs
  have ha : h.assertTag t = .ok () := by simp [Header.assertTag, ht]
  rw [e]
  simp only [ok_bind, ha, liftRes, mapErr_ok, hl, Length.definite?]
  rw [if_pos hx]
  simp only [err_bind, Needed.new]
  rw [if_neg (by omega)]

/-- C116: where the contents are cut short both ask for more: `parse_ber` for the octets that are missing,
`parse_ber_with_tag` for all octets of the contents. -/
theorem C116_ber_cut (D : Deps) (t l : Nat) (hb x : Bytes) (h : Header) (hH : BerHeader hb h) (ht : h.tag = t)
    (hl : h.length = .definite l) (hs : l < 2 ^ 32) (hx : x.length < l) :
    parseBer D (hb ++ x) = .err (.incomplete (.size (l - x.length))) ∧
      parseBerWithTag D t (hb ++ x) = .err (.incomplete (.size l)) := by
  have e : headerFromBer (hb ++ x) = .ok (x, h) := headerFromBer_iff.2 ⟨hb, rfl, hH⟩
  refine ⟨parseBer_cut D l hb x h hH hl hx, ?_⟩
  unfold parseBerWithTag berReadElementContentAs
  have ha : h.assertTag t = .ok () := by simp [Header.assertTag, ht]
  rw [e]
  simp only [ok_bind, ha, liftRes, mapErr_ok, hl]
  rw [if_neg (by simp only [maxObjectSize]; omega), if_pos hx]
  simp only [err_bind, Needed.new]
  rw [if_neg (by omega)]

example : parseBer Tests.D0 [0x04, 0x05, 0x61, 0x62] = .err (.incomplete (.size 3)) ∧
    parseBerWithTag Tests.D0 4 [0x04, 0x05, 0x61, 0x62] = .err (.incomplete (.size 5)) ∧
    parseBer Tests.D0 [0x24, 0x80, 0x04, 0x01] = parseBerWithTag Tests.D0 4 [0x24, 0x80, 0x04, 0x01] ∧
    parseBer Tests.D0 [0x31, 0x03, 0x04, 0x05, 0x61] = .err (.error (.incomplete (.size 4))) ∧
    parseBerWithTag Tests.D0 17 [0x31, 0x03, 0x04, 0x05, 0x61] = .err (.error (.incomplete (.size 4))) :=
  ⟨rfl, rfl, rfl, rfl, rfl⟩

/-- C116: as for `parse_der` and the functions for one type, both ask for all octets of the contents. -/
theorem C116_der_cut (D : Deps) (hT : TimesKnown D) (t l : Nat) (hb x : Bytes) (h : Header) (hH : DerHeader hb h)
    (hc : h.cls = .universal) (ht : h.tag = t)
    (hl : h.length = .definite l) (hs : l < 2 ^ 32) (hx : x.length < l) :
    parseDer D (hb ++ x) = .err (.incomplete (.size l)) ∧
      parseDerWithTag D t (hb ++ x) = .err (.incomplete (.size l)) := by
  have e : headerFromDer (hb ++ x) = .ok (x, h) := headerFromDer_iff.2 ⟨hb, rfl, hH⟩
  have h2 := parseDerWithTag_cut D t l hb x h hH ht hl hx
  refine ⟨?_, h2⟩
  rw [← h2]
  refine C116_der D hT t _ (fun hb' x' h' e1 e2 => ?_)
  have := headerFromDer_iff.2 ⟨hb', e1, e2⟩
  rw [e] at this
  simp only [ok.injEq, Prod.mk.injEq] at this
  obtain ⟨-, rfl⟩ := this
  exact ⟨hc, ht, fun l' hl' => by rw [hl] at hl'; cases hl'; exact hs⟩

/-- An INTEGER of four octets of which two are present. -/
example := C116_der_cut Tests.D0 (fun _ _ _ => by simp [Tests.D0]) 2 4 [0x02, 0x04] [1, 2] _ (derHeader_read rfl) rfl rfl rfl (by decide)
  (by decide)

/-- C116: beyond 2^32 - 1 octets one of the two functions refuses at once: for BER the one for the type, for DER the
general one (the one for BIT STRING waits for the octets, as `parse_ber` does). -/
theorem C116_too_long (D : Deps) (t l : Nat) (hb x : Bytes) (h : Header)
    (ht : h.tag = t) (hl : h.length = .definite l) (hs : 2 ^ 32 ≤ l) :
    (BerHeader hb h → parseBerWithTag D t (hb ++ x) = .err (.error .invalidLength) ∧
      (x.length < l → parseBer D (hb ++ x) = .err (.incomplete (.size (l - x.length))))) ∧
    (DerHeader hb h → parseDer D (hb ++ x) = .err (.error .invalidLength) ∧
      (x.length < l → parseDerWithTag D t (hb ++ x) = .err (.incomplete (.size l)))) := by
  constructor
  · intro hH
    refine ⟨?_, parseBer_cut D l hb x h hH hl⟩
    have e : headerFromBer (hb ++ x) = .ok (x, h) := headerFromBer_iff.2 ⟨hb, rfl, hH⟩
    unfold parseBerWithTag berReadElementContentAs
    have ha : h.assertTag t = .ok () := by simp [Header.assertTag, ht]
    rw [e]
    simp only [ok_bind, ha, liftRes, mapErr_ok, hl]
    rw [if_pos (by simp only [maxObjectSize]; omega)]
    rfl
  · intro hH
    refine ⟨?_, parseDerWithTag_cut D t l hb x h hH ht hl⟩
    have e : headerFromDer (hb ++ x) = .ok (x, h) := headerFromDer_iff.2 ⟨hb, rfl, hH⟩
    unfold parseDer parseDerRecursive
    rw [e]
    simp only [ok_bind, hl]
    rw [if_pos (by simp only [maxObjectSize]; omega)]

/-- An OCTET STRING of 2^32 octets of which two are present. -/
example := C116_too_long Tests.D0 4 (2 ^ 32) [0x04, 0x85, 1, 0, 0, 0, 0] [1, 2]
  ⟨.universal, false, 4, .definite (2 ^ 32), some [0x04]⟩ rfl rfl (by decide)
example : DerHeader [0x04, 0x85, 1, 0, 0, 0, 0] ⟨.universal, false, 4, .definite (2 ^ 32), some [0x04]⟩ :=
  derHeader_read (by decide +kernel)

/-- C116: the other conditions are needed.  Another class is read by its number by the functions for one type only; the object
of a type that the library does not read repeats the identifier octets only in `parse_ber`. -/
theorem C116_conditions :
    (parseBer Tests.D0 [0x81, 0x01, 0xff] ≠ parseBerWithTag Tests.D0 1 [0x81, 0x01, 0xff] ∧
      parseDer Tests.D0 [0x81, 0x01, 0xff] ≠ parseDerWithTag Tests.D0 1 [0x81, 0x01, 0xff]) ∧
    parseBer Tests.D0 [0x08, 0x00] ≠ parseBerWithTag Tests.D0 8 [0x08, 0x00] := by
  refine ⟨⟨?_, ?_⟩, ?_⟩
  · intro h
    have e1 : parseBer Tests.D0 [0x81, 0x01, 0xff] = .ok ([], .mk (Tests.h .contextSpecific false 1 1 [0x81])
      (.unknown ⟨Tests.h .contextSpecific false 1 1 [0x81], [0xff]⟩)) := rfl
    have e2 : parseBerWithTag Tests.D0 1 [0x81, 0x01, 0xff] =
      .ok ([], .mk (Tests.h .contextSpecific false 1 1 [0x81]) (.boolean true)) := rfl
    rw [e1, e2] at h
    simp at h
  · intro h
    have e1 : parseDer Tests.D0 [0x81, 0x01, 0xff] = .ok ([], .mk (Tests.h .contextSpecific false 1 1 [0x81])
      (.unknown ⟨Tests.h .contextSpecific false 1 1 [0x81], [0xff]⟩)) := rfl
    have e2 : parseDerWithTag Tests.D0 1 [0x81, 0x01, 0xff] =
      .ok ([], .mk (Tests.h .contextSpecific false 1 1 [0x81]) (.boolean true)) := rfl
    rw [e1, e2] at h
    simp at h
  · intro h
    have e1 : parseBer Tests.D0 [0x08, 0x00] = .ok ([], .mk (Tests.h .universal false 8 0 [0x08])
      (.unknown ⟨Tests.h .universal false 8 0 [0x08], []⟩)) := rfl
    have e2 : parseBerWithTag Tests.D0 8 [0x08, 0x00] = .ok ([], .mk (Tests.h .universal false 8 0 [0x08])
      (.unknown ⟨Header.new .universal false 8 (.definite 0), []⟩)) := rfl
    rw [e1, e2] at h
    simp [Tests.h, Header.new] at h

end Verif
