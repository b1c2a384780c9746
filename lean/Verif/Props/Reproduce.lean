import Verif.Props.ValidDer
/-!
# Property C103: DER documents are reproduced by parsing and serializing
-/
namespace Verif
open Outcome Spec

/-! ## Specification -/

/-- Limits of the serializer on one element: tag numbers up to 30, enumerated values that are not zero and whose contents
octets have no leading zero octet, times that are displayed as they were written. -/
def Spec.Writable (D : Deps) (cls : Class) (num : Nat) (c : Bytes) : Prop :=
  num ≤ 30 ∧ (cls = .universal →
    (num = 10 → c.head? ≠ some 0) ∧
    (num = 23 → ∀ t, D.utcTime false c = .ok t → D.display t = c) ∧
    (num = 24 → ∀ t, D.generalizedTime false c = .ok t → D.display t = c))

/-! ## Lemmas -/

theorem minIdent_one {id : Bytes} {cls : Class} {k : Bool} {num : Nat} (h : MinIdent id cls k num) (hn : num ≤ 30) :
    ∃ b, id = [b] ∧ IdentOctets [b] cls k num := by
  have h1 := h.2 _ ((identOctet_iff (h := ⟨cls, k, num, .indefinite, none⟩)).2 ⟨by simpa using hn, rfl⟩)
  obtain ⟨h2, _⟩ := identOctets_lt h.1
  match id, h1, h2, h.1 with
  | [b], _, _, h3 => exact ⟨b, rfl, h3⟩
  | [], _, h2, _ => simp at h2
  | _ :: _ :: _, h1, _, _ => simp at h1

theorem minOctets_of_head {c : Bytes} (h : c.head? ≠ some 0) : MinOctets c (base256 c) := by
  refine ⟨rfl, fun v hv => ?_⟩
  match c, h with
  | [], _ => simp
  | b :: s, h =>
    have hb : b ≠ 0 := by simpa using h
    have h1 := base256_append [b] s
    have h2 := base256_lt v
    have h3 : 1 ≤ base256 [b] := by
      rcases Nat.eq_zero_or_pos (base256 [b]) with h0 | h0
      · exact absurd (UInt8.toNat_inj.1 (by simpa [base256] using h0)) hb
      · exact h0
    rcases Nat.lt_or_ge v.length (s.length + 1) with h4 | h4
    · have h5 : 256 ^ v.length ≤ 256 ^ s.length := Nat.pow_le_pow_right (by decide) (by omega)
      have h6 : 256 ^ s.length ≤ base256 [b] * 256 ^ s.length := Nat.le_mul_of_pos_left _ h3
      rw [List.singleton_append] at h1
      omega
    · simpa using h4

theorem derDoc_canonical {D : Deps} {d : Nat} {e : Bytes}
    (H : DerDoc (fun cls num c => Supported D cls num c ∧ Writable D cls num c) d e) : Canonical D e := by
  induction H with
  | primitive d id len c cls num h1 h2 h3 h4 =>
    obtain ⟨b, rfl, hb⟩ := minIdent_one h1 h4.2.1
    have := Canonical.leaf (D := D) b len c cls false num hb h2 fun hu => by
      have hc := h3 hu
      obtain ⟨w1, w2, w3⟩ := h4.2.2 hu
      refine ⟨?_, ?_, ?_, ?_, ?_, ?_, ?_⟩
      · rintro rfl; exact hc.elim
      · rintro rfl; exact hc
      · rintro rfl; exact hc
      · rintro rfl
        exact minOctets_of_head (w1 rfl)
      · exact w2
      · exact w3
      · constructor <;> (rintro rfl; exact hc.elim)
    simpa using this
  | list d id len es num h1 h2 h3 _ ih =>
    obtain ⟨b, rfl, hb⟩ := minIdent_one h1 (by omega)
    simpa using Canonical.list (D := D) b len es num hb h2 h3 ih
  | constructed d id len c cls num h1 h2 h3 h4 =>
    obtain ⟨b, rfl, hb⟩ := minIdent_one h1 h4.2.1
    have := Canonical.leaf (D := D) b len c cls true num hb h2 fun hu => by
      have hn := h3.resolve_left (fun h => h hu)
      constructor <;> omega
    simpa using this

theorem Spec.DerDoc.mono {P Q : Class → Nat → Bytes → Prop} {d : Nat} {e : Bytes} (h : ∀ a b c, P a b c → Q a b c)
    (H : DerDoc P d e) : DerDoc Q d e := by
  induction H with
  | primitive d id len c cls num h1 h2 h3 h4 => exact .primitive d id len c cls num h1 h2 h3 (h _ _ _ h4)
  | list d id len es num h1 h2 h3 _ ih => exact .list d id len es num h1 h2 h3 ih
  | constructed d id len c cls num h1 h2 h3 h4 => exact .constructed d id len c cls num h1 h2 h3 (h _ _ _ h4)

/-! ## C103 -/

/-- C103 in full: reading a DER document and writing what was read gives the document. -/
def C103Statement : Prop :=
  ∀ (D : Deps) (d : Nat) (e : Bytes) (o : BerObject), DerDoc (fun _ _ _ => True) d e → e.length < 2 ^ 32 →
    parseDer D e = .ok ([], o) → toVec D o = .ok e

/-- SEQUENCE { INTEGER 5, BOOLEAN true }. -/
theorem derDoc_small (D : Deps) : DerDoc (fun cls num c => Supported D cls num c ∧ Writable D cls num c) 50
    [0x30, 0x06, 0x02, 0x01, 0x05, 0x01, 0x01, 0xff] := by
  have h5 : DerDoc (fun cls num c => Supported D cls num c ∧ Writable D cls num c) 49 [0x02, 0x01, 0x05] :=
    .primitive 48 [0x02] [0x01] [0x05] _ _ (minIdent_low 0x02 (by decide)) (minLen_short 1 (by decide))
      (fun _ => ⟨by simp, by decide, by decide⟩) (by simp [Supported, Writable, strTag])
  have hb : DerDoc (fun cls num c => Supported D cls num c ∧ Writable D cls num c) 49 [0x01, 0x01, 0xff] :=
    .primitive 48 [0x01] [0x01] [0xff] _ _ (minIdent_low 0x01 (by decide)) (minLen_short 1 (by decide))
      (fun _ => .inr rfl) (by simp [Supported, Writable, strTag])
  exact .list 49 [0x30] [0x06] [[0x02, 0x01, 0x05], [0x01, 0x01, 0xff]] 16 (minIdent_low 0x30 (by decide)) (.inl rfl)
    (minLen_short 6 (by decide)) (by simp [h5, hb])

/-- C103, what holds: DER documents within the limits of the parser (`Supported`) and of the serializer (`Writable`)
are reproduced octet for octet.  Missing: documents beyond the limits (see the counterexamples). -/
theorem C103_reproduced_partial (D : Deps) (hT : TimesKnown D) (e rest : Bytes)
    (H : DerDoc (fun cls num c => Supported D cls num c ∧ Writable D cls num c) 50 e) (hl : e.length < 2 ^ 32) :
    ∃ o, parseDer D (e ++ rest) = .ok (rest, o) ∧ toVec D o = .ok e := by
  obtain ⟨o, ho⟩ := C102_accepted_partial D hT e rest (H.mono fun _ _ _ h => h.1) hl
  exact ⟨o, ho, (C83_der_fixed_iff_canonical D hT 49 e rest o ho (by omega)).2 (derDoc_canonical H)⟩

example := C103_reproduced_partial Tests.D0 (fun _ _ _ => by simp [Tests.D0]) _ [0x07] (derDoc_small _) (by decide)

/-- C103: one object, one DER document. -/
theorem C103_unique_partial (D : Deps) (hT : TimesKnown D) (e e' : Bytes) (o o' : BerObject)
    (H : DerDoc (fun cls num c => Supported D cls num c ∧ Writable D cls num c) 50 e) (hl : e.length < 2 ^ 32)
    (H' : DerDoc (fun cls num c => Supported D cls num c ∧ Writable D cls num c) 50 e') (hl' : e'.length < 2 ^ 32)
    (h : parseDer D e = .ok ([], o)) (h' : parseDer D e' = .ok ([], o')) (ho : erase o = erase o') : e = e' := by
  obtain ⟨p, h1, h2⟩ := C103_reproduced_partial D hT e [] H hl
  obtain ⟨p', h3, h4⟩ := C103_reproduced_partial D hT e' [] H' hl'
  rw [List.append_nil, h] at h1
  rw [List.append_nil, h'] at h3
  cases h1
  cases h3
  rw [C49_stored_lengths_ignored D o o' ho, h4] at h2
  exact (ok.inj h2).symm

example := C103_unique_partial Tests.D0 (fun _ _ _ => by simp [Tests.D0]) _ _ _ _ (derDoc_small _) (by decide) (derDoc_small _)
  (by decide) rfl rfl rfl

/-- C103 is false for enumerated values: 128 is written as -128. -/
theorem C103_enumerated_counterexample (D : Deps) : DerDoc (fun _ _ _ => True) 1 [0x0a, 0x02, 0x00, 0x80] ∧
    ∃ o, parseDer D [0x0a, 0x02, 0x00, 0x80] = .ok ([], o) ∧ toVec D o = .ok [0x0a, 0x01, 0x80] :=
  ⟨.primitive 0 [0x0a] [0x02] [0x00, 0x80] _ _ (minIdent_low 0x0a (by decide)) (minLen_short 2 (by decide))
    (fun _ => ⟨by simp, by decide, by decide⟩) trivial, _, rfl, rfl⟩

/-- C103 is false for tag numbers above 30: the serializer panics. -/
theorem C103_tag_counterexample (D : Deps) : DerDoc (fun _ _ _ => True) 1 [0x9f, 0x1f, 0x00] ∧
    ∃ o, parseDer D [0x9f, 0x1f, 0x00] = .ok ([], o) ∧ toVec D o = .panic := by
  refine ⟨.primitive 0 [0x9f, 0x1f] [0x00] [] .contextSpecific 31 ⟨?_, ?_⟩ (minLen_short 0 (by decide)) (by simp) trivial,
    _, rfl, rfl⟩
  · exact .high 0x9f [] 0x1f (by decide) (by simp) (by decide)
  · intro id' h
    obtain ⟨h0, h1 | h1⟩ := identOctets_lt h
    · exact absurd h1 (by decide)
    · rcases Nat.lt_or_ge id'.length 2 with h2 | h2
      · rw [show id'.length = 1 by omega] at h1
        simp at h1
      · exact h2

/-- C103 as stated is false. -/
theorem C103_full_counterexample : ¬ C103Statement := fun h => by
  obtain ⟨h1, o, h2, h3⟩ := C103_enumerated_counterexample Tests.D0
  rw [h Tests.D0 1 _ o h1 (by decide) h2] at h3
  simp at h3

end Verif
