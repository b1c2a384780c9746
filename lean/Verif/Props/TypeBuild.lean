import Verif.SpecTypeBuild
import Verif.Props.TypeValue
import Verif.Props.Build
import Verif.Props.EncodeRaw
/-!
# Objects built for the values of an ASN.1 type: C128
-/
namespace Verif
open Outcome Spec

/-- What an object is written as. -/
def Writes (D : Deps) (R : Rules) (s : Schema) (t : TValue) (o : BerObject) : Prop :=
  TagsOk o ∧ ∀ e, Encodes D o e → TypeCodes D R s t e

theorem writes_each {D : Deps} {R : Rules} {s : Schema} : ∀ {ps : List (TValue × BerObject)},
    (∀ p ∈ ps, Writes D R s p.1 p.2) → TagsOkL (ps.map Prod.snd) ∧
      ∀ c, EncodesL D (ps.map Prod.snd) c → Each (TypeCodes D R s) (ps.map Prod.fst) c
  | [], _ => ⟨trivial, fun c hc => by cases hc; exact .nil⟩
  | p :: ps, H => by
    obtain ⟨h1, h2⟩ := H p (by simp)
    obtain ⟨h3, h4⟩ := writes_each (ps := ps) fun q hq => H q (by simp [hq])
    refine ⟨⟨h1, h3⟩, ?_⟩
    rintro c ⟨a, b, rfl, ha, hb⟩
    exact .cons _ _ a b (h2 a ha) (h4 b hb)

theorem absent_codes {D : Deps} {R : Rules} {s : Schema} (hs : s.isOptional = true) : TypeCodes D R s .absent [] := by
  cases s
  case optional => exact .inl ⟨rfl, rfl⟩
  case explicitOptional => exact .inl ⟨rfl, rfl⟩
  all_goals cases hs

theorem writes_all {D : Deps} {R : Rules} : ∀ {ps : List (Schema × TValue × Option BerObject)},
    (∀ p ∈ ps, ∀ o, p.2.2 = some o → Writes D R p.1 p.2.1 o) →
    (∀ p ∈ ps, p.2.2 = none → p.1.isOptional = true ∧ p.2.1 = .absent) →
    TagsOkL (ps.filterMap (·.2.2)) ∧
      ∀ c, EncodesL D (ps.filterMap (·.2.2)) c → TypeCodesAll D R (ps.map (·.1)) (ps.map (·.2.1)) c
  | [], _, _ => ⟨trivial, fun c hc => by cases hc; exact ⟨rfl, rfl⟩⟩
  | (s, t, x) :: ps, H, H' => by
    obtain ⟨h3, h4⟩ := writes_all (ps := ps) (fun q hq => H q (by simp [hq])) fun q hq => H' q (by simp [hq])
    cases x with
    | none =>
      obtain ⟨h1, h2⟩ := H' (s, t, none) (by simp) rfl
      simp only at h1 h2
      subst h2
      rw [List.filterMap_cons_none rfl]
      exact ⟨h3, fun c hc => ⟨_, _, [], c, rfl, rfl, absent_codes h1, h4 c hc⟩⟩
    | some o =>
      obtain ⟨h1, h2⟩ := H (s, t, some o) (by simp) o rfl
      rw [show List.filterMap (fun x : Schema × TValue × Option BerObject => x.2.2) ((s, t, some o) :: ps) =
        o :: ps.filterMap (·.2.2) from rfl]
      refine ⟨⟨h1, h3⟩, ?_⟩
      rintro c ⟨a, b, rfl, ha, hb⟩
      exact ⟨_, _, a, b, rfl, rfl, h2 a ha, h4 b hb⟩

theorem around_of {R : Rules} {cls : Class} {tag : Nat} {b : UInt8} {len c : Bytes} (ht : tag ≤ 30)
    (h1 : IdentOctets [b] cls true tag) (h2 : MinLen len c.length) : Around R cls tag c (b :: (len ++ c)) :=
  .definite [b] len (by omega) (minIdent_octet h1) h2.1

theorem lowTag_list {n : Nat} (h : n = 16 ∨ n = 17) : n ≤ 30 := by omega

theorem builtT_writes {D : Deps} {R : Rules} {L : Value → BerObject → Prop}
    (hL : ∀ v o, L v o → TagsOk o ∧ HasValue o v ∧ ∀ e, Encodes D o e → ValueBy D R v e)
    {s : Schema} {t : TValue} {o : BerObject} (H : BuiltT L s t o) : Writes D R s t o := by
  induction H with
  | any v o h => exact ⟨(hL v o h).1, fun e he => ⟨v, rfl, (hL v o h).2.2 e he⟩⟩
  | typed v o hu h => exact ⟨(hL v o h).1, fun e he => ⟨v, rfl, (hL v o h).2.2 e he, hu, rfl⟩⟩
  | choice tag tags v o hu hn h => exact ⟨(hL v o h).1, fun e he => ⟨v, rfl, (hL v o h).2.2 e he, hu, hn⟩⟩
  | implicit tag cls v h₀ x len raw hu hc ht h =>
    obtain ⟨h1, h2, h3⟩ := hL v _ h
    refine ⟨⟨ht, h1.2⟩, ?_⟩
    rintro e ⟨b, len', w, rfl, g1, g2, g3⟩
    obtain ⟨k1, k2⟩ := hasValue_tag h2
    rw [hu] at k1
    have i0 : IdentOctets [_] h₀.cls h₀.constructed h₀.tag := identOctet_iff.2 ⟨h1.1, rfl⟩
    refine ⟨v, _, cls, rfl, h3 _ ⟨_, len', w, rfl, i0, g2, g3⟩, hu, rfl, ?_⟩
    refine ⟨_, [b], len', w, h₀.constructed, List.singleton_append.symm, rfl, ?_, hc, by omega, minIdent_octet g1, g2.1⟩
    rw [show h₀.cls = .universal from k1, show h₀.tag = v.num from k2] at i0
    exact minIdent_octet i0
  | sequenceOf s ps _ ih =>
    obtain ⟨h1, h2⟩ := writes_each ih
    refine ⟨⟨lowTag_list (by first | exact .inl rfl | exact .inr rfl), h1⟩, ?_⟩
    rintro e ⟨b, len, w, rfl, g1, g2, g3⟩
    exact ⟨_, w, rfl, h2 w g3, around_of (by decide) g1 g2⟩
  | setOf s ps _ ih =>
    obtain ⟨h1, h2⟩ := writes_each ih
    refine ⟨⟨lowTag_list (by first | exact .inl rfl | exact .inr rfl), h1⟩, ?_⟩
    rintro e ⟨b, len, w, rfl, g1, g2, g3⟩
    exact ⟨_, w, rfl, h2 w g3, around_of (by decide) g1 g2⟩
  | sequence ps _ ha ih =>
    obtain ⟨h1, h2⟩ := writes_all ih ha
    refine ⟨⟨lowTag_list (by first | exact .inl rfl | exact .inr rfl), h1⟩, ?_⟩
    rintro e ⟨b, len, w, rfl, g1, g2, g3⟩
    exact ⟨_, w, rfl, h2 w g3, around_of (by decide) g1 g2⟩
  | set ps _ ha ih =>
    obtain ⟨h1, h2⟩ := writes_all ih ha
    refine ⟨⟨lowTag_list (by first | exact .inl rfl | exact .inr rfl), h1⟩, ?_⟩
    rintro e ⟨b, len, w, rfl, g1, g2, g3⟩
    exact ⟨_, w, rfl, h2 w g3, around_of (by decide) g1 g2⟩
  | explicit tag cls s t o len raw hc ht _ ih =>
    refine ⟨⟨ht, ih.1⟩, ?_⟩
    rintro e ⟨b, len, w, rfl, g1, g2, g3⟩
    exact ⟨t, w, cls, rfl, hc, ih.2 w g3, around_of ht g1 g2⟩
  | optional s t o _ ih =>
    cases o with
    | mk h x =>
      refine ⟨ih.1, fun e he => .inr ⟨t, rfl, ih.2 e he⟩⟩
  | optionalBare s t o _ ih => exact ⟨ih.1, fun e he => .inr ⟨t, rfl, ih.2 e he⟩⟩
  | explicitOptional tag cls s t o len raw hc ht _ ih =>
    refine ⟨⟨ht, ih.1⟩, ?_⟩
    rintro e ⟨b, len, w, rfl, g1, g2, g3⟩
    exact .inr ⟨t, w, cls, rfl, hc, ih.2 w g3, around_of ht g1 g2⟩

theorem built_leaf {D : Deps} {R : Rules} {P : Value → Prop} (hP : ∀ v, P v → Rewritable false v) (v : Value) (o : BerObject)
    (H : Built P 50 v o) : TagsOk o ∧ HasValue o v ∧ ∀ e, Encodes D o e → ValueBy D R v e := by
  obtain ⟨h1, h2, h3⟩ := built_encodes (D := D) hP H
  refine ⟨h1, h2, fun e he => ?_⟩
  obtain ⟨g1, g2⟩ := C125_is_der D LooseEoc P hP 49 50 49 v e ((h3 e).1 he)
  exact ⟨codes_weaken (fun _ _ h => h.1) g2, fun _ => g1⟩

theorem builtT_present {L : Value → BerObject → Prop} {s : Schema} {t : TValue} {o : BerObject} (H : BuiltT L s t o) :
    t ≠ .absent := by
  cases H <;> simp

/-! ## C128 -/

/-- C128 in full: an object that a program builds for a value of a type is written, and the octets encode the value. -/
def C128Statement : Prop :=
  ∀ (D : Deps) (R : Rules) (s : Schema) (t : TValue) (o : BerObject), BuiltT (Built (fun _ => True) 50) s t o →
    ∃ e, toVec D o = .ok e ∧ (e.length < 2 ^ 64 → TypeCodes D R s t e)

/-- SEQUENCE { version [2] EXPLICIT INTEGER OPTIONAL, serial INTEGER, data OCTET STRING OPTIONAL, key [0] IMPLICIT OCTET STRING }
with the version, without the data: an object that is built for it. -/
theorem builtT_small : BuiltT (Built (Rewritable false) 50)
    (.sequence [.explicitOptional 2 (.typed 2), .typed 2, .optional (.typed 4), .implicit 0 4])
    (.sequence [.present (.tagged .contextSpecific 2 (.plain (.integer 1))), .plain (.integer 128), .absent,
      .retagged .contextSpecific 0 (.octets [0xff])])
    (.fromSeq [.mk ⟨.contextSpecific, true, 2, .definite 0, none⟩ (.tagged .contextSpecific 2 (.fromIntSlice [0x01])),
      .fromIntSlice [0x00, 0x80], .mk ⟨.contextSpecific, false, 0, .definite 0, none⟩ (.octetString [0xff])]) := by
  refine .sequence [(_, _, some _), (_, _, some _), (_, _, none), (_, _, some _)] ?_ ?_
  · simp only [List.forall_mem_cons, List.not_mem_nil, false_imp_iff, implies_true, and_true, Option.some.injEq,
      forall_eq', reduceCtorEq, true_and]
    refine ⟨.explicitOptional 2 _ _ _ _ _ _ (by simp) (by decide) (.typed (.integer 1) _ rfl
        (.intSlice 49 1 [0x01] ⟨by simp, by decide, by decide⟩ (by decide) ⟨rfl, trivial⟩)),
      .typed (.integer 128) _ rfl (.intSlice 49 128 [0x00, 0x80] ⟨by simp, by decide, by decide⟩ (by decide) ⟨rfl, trivial⟩),
      .implicit 0 .contextSpecific (.octets [0xff]) (BerObject.fromObj (.octetString [0xff])).header (.octetString [0xff]) _ _ rfl
        (by simp) (by decide) (Built.content 49 (.octets [0xff]) (.octetString [0xff]) rfl ⟨rfl, trivial⟩)⟩
  · simp [Schema.isOptional]

/-- C128, what holds: so it is if the values without components of their own type are `Rewritable`, in BER and DER.  Missing:
some enumerated values, times and tag numbers above 30, as in C125. -/
theorem C128_written_partial (D : Deps) (R : Rules) (P : Value → Prop) (hP : ∀ v, P v → Rewritable false v) (s : Schema)
    (t : TValue) (o : BerObject) (H : BuiltT (Built P 50) s t o) :
    ∃ e, toVec D o = .ok e ∧ (e.length < 2 ^ 64 → TypeCodes D R s t e) := by
  obtain ⟨h1, h2⟩ := builtT_writes (R := R) (built_leaf (D := D) hP) H
  obtain ⟨e, he⟩ := C49_total D _ h1
  exact ⟨e, he, fun hl => h2 e ((C49_exact D _ e hl).1 he)⟩

example := C128_written_partial Tests.D0 .der _ (fun _ h => h) _ _ _ builtT_small

/-- C128: and the parser of the type reads the value back, before any octets and up to the end of what was written.  Missing:
as above, and types whose OPTIONAL components are told apart from what follows by the class of the tag alone (C127). -/
theorem C128_read_back_partial (D : Deps) (hT : TimesKnown D) (R : Rules) (P : Value → Prop)
    (hP : ∀ v, P v → Rewritable false v) (s : Schema) (ha : s.Apart Schema.Sees) (t : TValue) (o : BerObject)
    (H : BuiltT (Built P 50) s t o) : ∃ e, toVec D o = .ok e ∧ (e.length < 2 ^ 32 → ∀ rest, ∃ o',
      s.run D R (e ++ rest) = .ok (rest, o') ∧ HasT o' t) := by
  obtain ⟨e, h1, h2⟩ := C128_written_partial D R P hP s t o H
  exact ⟨e, h1, fun hl rest => C127_values_partial D hT R s ha t e rest (h2 (by omega)) hl
    fun ht => absurd ht (builtT_present H)⟩

example := C128_read_back_partial Tests.D0 (fun _ _ _ => by simp [Tests.D0]) .der _ (fun _ h => h) _ apart_serial _ _ builtT_small

theorem toVec_retagged (D : Deps) (tag : Nat) (cls : Class) (h₀ : Header) (x : Content) :
    toVec D (.mk ⟨cls, h₀.constructed, tag, .definite 0, none⟩ x) = encodeTaggedImplicit D tag cls (.mk h₀ x) := by
  unfold toVec encodeTaggedImplicit
  rw [encodeObject]
  rfl

/-- C128: the functions that write an object with a tag, `ber_encode_tagged_explicit` and `ber_encode_tagged_implicit`, write
an encoding of the tagged value.  Missing: as above. -/
theorem C128_tagged_partial (D : Deps) (R : Rules) (P : Value → Prop) (hP : ∀ v, P v → Rewritable false v) (tag : Nat)
    (cls : Class) (hc : cls ≠ .universal) (ht : tag ≤ 30) :
    (∀ s t o, BuiltT (Built P 50) s t o → ∃ e, encodeTaggedExplicit D tag cls o = .ok e ∧
      (e.length < 2 ^ 64 → TypeCodes D R (.explicit tag s) (.tagged cls tag t) e)) ∧
    ∀ v o, Built P 50 v o → v.cls = .universal → ∃ e, encodeTaggedImplicit D tag cls o = .ok e ∧
      (e.length < 2 ^ 64 → TypeCodes D R (.implicit tag v.num) (.retagged cls tag v) e) := by
  constructor
  · intro s t o H
    obtain ⟨e, h1, h2⟩ := C128_written_partial D R P hP _ _ _ (.explicit tag cls s t o (.definite 0) none hc ht H)
    rw [C92_tagged_content D _ _ _ _ rfl] at h1
    exact ⟨e, h1, h2⟩
  · intro v o H hv
    cases o with
    | mk h₀ x =>
      obtain ⟨e, h1, h2⟩ := C128_written_partial D R P hP _ _ _ (.implicit tag cls v h₀ x (.definite 0) none hv hc ht H)
      rw [toVec_retagged] at h1
      exact ⟨e, h1, h2⟩

example := (C128_tagged_partial Tests.D0 .der (Rewritable false) (fun _ h => h) 3 .application (by decide) (by decide)).1 _ _ _ builtT_small

theorem minIdent_pos {id : Bytes} {cls : Class} {k : Bool} {num : Nat} (h : MinIdent id cls k num) : 1 ≤ id.length := by
  have := h.1
  cases this <;> simp

theorem lenOctets_pos {len : Bytes} {l : Length} (h : LenOctets len l) : 1 ≤ len.length := by
  cases h <;> simp

/-- C128 is false for the enumerated value 0, which is written without contents octets. -/
theorem C128_enumerated_counterexample (D : Deps) (R : Rules) :
    BuiltT (Built (fun _ => True) 50) (.typed 10) (.plain (.enumerated 0)) (.fromObj (.enum 0)) ∧
    toVec D (.fromObj (.enum 0)) = .ok [0x0a, 0x00] ∧ ¬ TypeCodes D R (.typed 10) (.plain (.enumerated 0)) [0x0a, 0x00] := by
  refine ⟨.typed (.enumerated 0) _ rfl (.content 49 _ _ ⟨by decide, by decide, rfl⟩ trivial), rfl, ?_⟩
  rintro ⟨v, h1, ⟨h2, -⟩, -⟩
  cases h1
  generalize he : ([0x0a, 0x00] : Bytes) = e at h2
  cases h2 with
  | primitive _ _ id len c _ g1 g2 g3 g4 g5 =>
    have h3 := minIdent_pos g1
    have h4 := lenOctets_pos g2
    have h5 := congrArg List.length he
    simp only [List.length_cons, List.length_nil, List.length_append] at h5
    obtain rfl : c = [] := List.eq_nil_of_length_eq_zero (by omega)
    exact absurd rfl (show MinInt [] from g3).1
  | list _ _ id len ps num _ g1 g2 => rcases g2 with ⟨_, g2⟩ | ⟨_, g2⟩ <;> cases g2
  | listIndefinite _ _ id ps num _ g1 g2 => rcases g2 with ⟨_, g2⟩ | ⟨_, g2⟩ <;> cases g2

/-- C128 as stated is false. -/
theorem C128_full_counterexample : ¬ C128Statement := fun H => by
  obtain ⟨h1, h2, h3⟩ := C128_enumerated_counterexample Tests.D0 .ber
  obtain ⟨e, h4, h5⟩ := H Tests.D0 .ber _ _ _ h1
  rw [h2] at h4
  cases h4
  exact h3 (h5 (by decide))

/-- C128: the enumerated value 2^32 is written, but not read back. -/
theorem C128_read_back_counterexample (D : Deps) (R : Rules) :
    BuiltT (Built (fun _ => True) 50) (.typed 10) (.plain (.enumerated 4294967296)) (.fromObj (.enum 4294967296)) ∧
    toVec D (.fromObj (.enum 4294967296)) = .ok [0x0a, 0x05, 0x01, 0x00, 0x00, 0x00, 0x00] ∧
    ∃ err, (Schema.typed 10).run D R [0x0a, 0x05, 0x01, 0x00, 0x00, 0x00, 0x00] = .err err := by
  refine ⟨.typed (.enumerated 4294967296) _ rfl (.content 49 _ _ ⟨by decide, by decide, rfl⟩ trivial), rfl, ?_⟩
  cases R <;> exact ⟨_, rfl⟩

end Verif
