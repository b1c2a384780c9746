import Verif.SpecBuild
import Verif.Props.ValueMeaning
import Verif.Props.Reproduce
import Verif.Props.Oid
/-!
# Property C125: objects built for a value are written as its DER encoding
-/
namespace Verif
open Outcome Spec

/-! ## Lemmas -/

theorem minimal_nonneg {c : Bytes} (hm : MinInt c) (h0 : ¬ twosComplement c < 0) {a b : UInt8} {rest : Bytes}
    (hc : c = a :: b :: rest) : (128 * 256 ^ rest.length : Nat) ≤ twosComplement c := by
  subst hc
  rw [twosComplement_nonneg h0, base256, base256, List.length_cons, Nat.pow_succ]
  have hh : ¬ isHighestBitSet (a :: b :: rest) = true := fun h => h0 ((isHighestBitSet_iff _).1 h)
  have key : 1 ≤ a.toNat ∨ 128 ≤ b.toNat := by
    refine Classical.byContradiction fun h => ?_
    have : a = 0 := UInt8.toNat_inj.1 (by show a.toNat = 0; omega)
    subst this
    exact hm.2.1 ((nine_zero_bits _).2 ⟨b, rest, rfl, by omega⟩)
  generalize 256 ^ rest.length = m
  generalize base256 rest = r
  have h1 : a.toNat * (m * 256) = 256 * (a.toNat * m) := by
    rw [Nat.mul_comm m, ← Nat.mul_assoc, Nat.mul_comm a.toNat, Nat.mul_assoc]
  rw [h1]
  rcases key with key | key
  · have := Nat.mul_le_mul_right m key
    generalize a.toNat * m = x at *
    generalize b.toNat * m = y at *
    omega
  · have := Nat.mul_le_mul_right m key
    generalize a.toNat * m = x at *
    generalize b.toNat * m = y at *
    omega

theorem pow_128 (n : Nat) : 128 * 256 ^ n = 2 ^ (8 * (n + 1) - 1) := by
  rw [show 8 * (n + 1) - 1 = 8 * n + 7 by omega, Nat.pow_add, Nat.pow_mul, Nat.mul_comm]

theorem twosComplement_lt (c : Bytes) (hc : c ≠ []) : twosComplement c < (2 ^ (8 * c.length - 1) : Nat) := by
  by_cases h0 : twosComplement c < 0
  · generalize 2 ^ (8 * c.length - 1) = m
    omega
  have hh : ¬ isHighestBitSet c = true := fun h => h0 ((isHighestBitSet_iff _).1 h)
  cases c with
  | nil => exact absurd rfl hc
  | cons a c =>
    rw [twosComplement_nonneg h0, base256]
    have ha : a.toNat < 128 := by simpa [isHighestBitSet] using hh
    have hr := base256_lt c
    rw [List.length_cons, ← pow_128]
    have := Nat.mul_le_mul_right (256 ^ c.length) (show a.toNat ≤ 127 by omega)
    generalize 256 ^ c.length = m at *
    generalize a.toNat * m = x at *
    omega

theorem minInt_length {c c' : Bytes} (h : MinInt c) (h' : MinInt c') (e : twosComplement c = twosComplement c') :
    c.length ≤ c'.length := by
  have hp : 1 ≤ c'.length := List.length_pos_iff.2 h'.1
  by_cases h0 : twosComplement c < 0
  · refine (minimal_negative c'.length hp c h h0).2 ?_
    rw [e] at h0 ⊢
    exact (minimal_negative c'.length hp c' h' h0).1 (Nat.le_refl _)
  · refine Classical.byContradiction fun hl => ?_
    match c, hl with
    | [], hl => simp at hl
    | [_], hl => simp only [List.length_cons, List.length_nil] at hl; omega
    | a :: b :: rest, hl =>
      have h1 := minimal_nonneg h h0 rfl
      have h2 := twosComplement_lt c' h'.1
      rw [e] at h1
      rw [pow_128] at h1
      have h3 : (2 : Nat) ^ (8 * c'.length - 1) ≤ 2 ^ (8 * (rest.length + 1) - 1) :=
        Nat.pow_le_pow_right (by decide) (by simp only [List.length_cons] at hl; omega)
      omega

/-- The minimal octets of a number are unique. -/
theorem minInt_unique {c c' : Bytes} (h : MinInt c) (h' : MinInt c') (e : twosComplement c = twosComplement c') : c = c' := by
  have hl : c.length = c'.length := Nat.le_antisymm (minInt_length h h' e) (minInt_length h' h e.symm)
  refine base256_inj hl ?_
  have s : isHighestBitSet c = isHighestBitSet c' := by
    rw [Bool.eq_iff_iff, isHighestBitSet_iff, isHighestBitSet_iff, e]
  rw [twosComplement_eq c, twosComplement_eq c', ← s, hl] at e
  split at e <;> omega

theorem bitsOf_inj {a b : Bytes} (h : bitsOf a = bitsOf b) : a = b := by
  have hl := congrArg List.length h
  rw [bitsOf_length, bitsOf_length] at hl
  refine base256_inj (by omega) ?_
  rw [← ofBits_bitsOf, ← ofBits_bitsOf, h]

theorem subIds_inj {ns : List Nat} {c c' : Bytes} (h : SubIds ns c) (h' : SubIds ns c') : c = c' := by
  induction h generalizing c' with
  | nil => cases h'; rfl
  | cons n ns b bs h1 _ ih =>
    cases h' with
    | cons _ _ b' bs' h1' h2' => rw [subId_inj h1 h1', ih h2']

theorem arcsCode_inj {arcs : List Nat} {c c' : Bytes} (h : ArcsCode arcs c) (h' : ArcsCode arcs c') : c = c' := by
  obtain ⟨a, b, r, rfl, _, _, h1⟩ := h
  obtain ⟨a', b', r', e, _, _, h2⟩ := h'
  cases e
  exact subIds_inj h1 h2

theorem subIds_contents {ns : List Nat} {c : Bytes} (h : SubIds ns c) (hn : ns ≠ []) : OidContents c := by
  have key : ∃ ss : List Bytes, ss.length = ns.length ∧ c = ss.flatten ∧ ∀ s ∈ ss, ∃ ms last, s = ms ++ [last] ∧
      (∀ m ∈ ms, 128 ≤ m.toNat) ∧ last.toNat < 128 ∧ ms.head? ≠ some 0x80 := by
    clear hn
    induction h with
    | nil => exact ⟨[], rfl, rfl, by simp⟩
    | cons n ns b bs h1 _ ih =>
      obtain ⟨ss, k1, rfl, k3⟩ := ih
      refine ⟨b :: ss, by simp [k1], by simp, ?_⟩
      intro s hs
      rcases List.mem_cons.1 hs with rfl | hs
      · obtain ⟨ms, l, rfl, g1, g2, _, g3⟩ := h1
        refine ⟨ms, l, rfl, g1, g2, ?_⟩
        cases ms with
        | nil => simp
        | cons m ms => simpa using g3
      · exact k3 s hs
  obtain ⟨ss, k1, k2, k3⟩ := key
  refine ⟨ss, ?_, k2, k3⟩
  rintro rfl
  exact hn (List.eq_nil_of_length_eq_zero k1.symm)

theorem arcsCode_contents {arcs : List Nat} {c : Bytes} (h : ArcsCode arcs c) : OidContents c := by
  obtain ⟨a, b, r, rfl, _, _, h1⟩ := h
  exact subIds_contents h1 (by simp)

theorem ucs4_length (cs : List Nat) : (cs.flatMap ucs4Enc).length % 4 = 0 := by
  induction cs with
  | nil => rfl
  | cons c cs ih => rw [List.flatMap_cons, List.length_append, show (ucs4Enc c).length = 4 from rfl]; omega

theorem utf16_short {a b : List Nat} (ha : ∀ x ∈ a, IsScalar x) (hb : ∀ x ∈ b, IsScalar x ∧ x < 0x10000)
    (h : a.flatMap utf16Enc = b.flatMap utf16Enc) : a = b := by
  have := congrArg (fun s => decodeUtf16 (utf16Units s)) h
  exact Option.some.inj ((decodeUtf16_flatMap a ha).symm.trans (this.trans (decodeUtf16_flatMap b fun x hx => (hb x hx).1)))

/-- What is written for the content of a value are the contents octets of its DER encoding. -/
theorem holds_iff {D : Deps} {v : Value} {x : Content} (h : Holds v x) (hr : Rewritable false v) (w : Bytes) :
    EncodesC D x w ↔ PrimContents v.num w ∧ Means D v w := by
  cases v with
  | boolean b =>
    cases h
    constructor
    · intro (e : w = _)
      subst e
      cases b
      · exact ⟨.inl rfl, 0, rfl, by simp⟩
      · exact ⟨.inr rfl, 0xff, rfl, by simp⟩
    · rintro ⟨h1 | h1, o, h2, h3⟩
      · subst h1; cases h2
        have : b = false := by simpa using h3
        subst this; rfl
      · subst h1; cases h2
        have : b = true := by simpa using h3
        subst this; rfl
  | integer z =>
    obtain ⟨c, h1, rfl, rfl⟩ := h
    exact ⟨fun e => by cases e; exact ⟨h1, rfl⟩, fun ⟨g1, g2⟩ => minInt_unique g1 h1 g2⟩
  | bits bs =>
    obtain ⟨u, s, h1, h2, rfl⟩ := h
    have hl := congrArg List.length h1
    rw [bitsOf_length, List.length_append, List.length_replicate] at hl
    constructor
    · intro (e : w = _)
      subst e
      refine ⟨⟨u, s, rfl, h2, ?_, ?_⟩, u, s, rfl, ?_⟩
      · rintro rfl
        simp only [List.length_nil] at hl
        exact UInt8.toNat_inj.1 (by show u.toNat = 0; omega)
      · intro b hb
        rw [h1, show 8 * s.length - u.toNat = bs.length by omega, List.drop_left] at hb
        exact List.eq_of_mem_replicate hb
      · rw [h1, show 8 * s.length - u.toNat = bs.length by omega, List.take_left]
    · rintro ⟨⟨u', s', rfl, g1, g2, g3⟩, u'', s'', e, rfl⟩
      cases e
      have hu : u'.toNat ≤ 8 * s'.length := by
        cases s' with
        | nil => simp [g2 rfl]
        | cons a s => simp only [List.length_cons]; omega
      rw [List.length_take, bitsOf_length] at hl
      have e1 : u' = u := UInt8.toNat_inj.1 (by omega)
      subst e1
      have e2 : s' = s := by
        refine bitsOf_inj ?_
        rw [h1]
        refine (List.take_append_drop (8 * s'.length - u'.toNat) _).symm.trans ?_
        congr 1
        refine List.eq_replicate_iff.2 ⟨?_, g3⟩
        rw [List.length_drop, bitsOf_length]; omega
      rw [e2]
      rfl
  | octets s =>
    cases h
    exact ⟨fun e => ⟨trivial, e⟩, fun e => e.2⟩
  | null =>
    cases h
    exact ⟨fun e => ⟨e, e⟩, fun e => e.2⟩
  | oid arcs =>
    obtain ⟨c, h1, rfl⟩ := h
    exact ⟨fun e => by cases e; exact ⟨arcsCode_contents h1, h1⟩, fun g => arcsCode_inj g.2 h1⟩
  | relativeOid arcs =>
    obtain ⟨c, h0, h1, rfl⟩ := h
    exact ⟨fun e => by cases e; exact ⟨subIds_contents h1 h0, h1⟩, fun g => subIds_inj g.2 h1⟩
  | text k cs =>
    obtain ⟨h1, h2, h3, rfl⟩ := h
    exact ⟨fun e => by cases e; exact ⟨h3, h1, h2, rfl⟩, fun g => g.2.2.2⟩
  | universalText cs =>
    obtain ⟨h1, rfl⟩ := h
    exact ⟨fun e => by cases e; exact ⟨ucs4_length cs, h1, rfl⟩, fun g => g.2.2⟩
  | bmp cs =>
    obtain ⟨h1, rfl⟩ := h
    exact ⟨fun e => by cases e; exact ⟨⟨cs, h1, rfl⟩, fun x hx => (h1 x hx).1, rfl⟩, fun g => g.2.2⟩
  | enumerated z =>
    obtain ⟨h1, h2, rfl⟩ := h
    obtain ⟨_, w1, w2, w3⟩ := hr
    show MinOctets w (z.toNat % 2 ^ 64) ↔ MinInt w ∧ twosComplement w = z
    rw [Nat.mod_eq_of_lt (by omega), minOctets_minInt (by omega) w3, Int.toNat_of_nonneg h1]
  | utcTime _ | generalizedTime _ => exact hr.2.elim
  | sequence _ | set _ | other _ _ _ _ => exact h.elim

theorem holds_tag {v : Value} {x : Content} (h : Holds v x) : x.tag = v.num ∧ v.cls = .universal ∧ TagsOkC x ∧
    v.num ≤ 30 ∧ v.num ≠ 16 ∧ v.num ≠ 17 := by
  cases v with
  | integer z | bits _ | relativeOid _ | oid _ | enumerated _ | universalText _ | bmp _ =>
    first
    | (obtain ⟨_, _, _, rfl⟩ := h; exact ⟨rfl, rfl, trivial, by simp [Value.num], by simp [Value.num], by simp [Value.num]⟩)
    | (obtain ⟨_, _, _, _, rfl⟩ := h; exact ⟨rfl, rfl, trivial, by simp [Value.num], by simp [Value.num], by simp [Value.num]⟩)
    | (obtain ⟨_, _, rfl⟩ := h; exact ⟨rfl, rfl, trivial, by simp [Value.num], by simp [Value.num], by simp [Value.num]⟩)
    | (obtain ⟨_, rfl⟩ := h; exact ⟨rfl, rfl, trivial, by simp [Value.num], by simp [Value.num], by simp [Value.num]⟩)
  | boolean _ | octets _ | null | utcTime _ | generalizedTime _ =>
    cases h
    exact ⟨rfl, rfl, trivial, by simp [Value.num], by simp [Value.num], by simp [Value.num]⟩
  | text k cs =>
    obtain ⟨_, _, _, rfl⟩ := h
    cases k <;> exact ⟨rfl, rfl, trivial, by simp [Value.num, strTag], by simp [Value.num, strTag], by simp [Value.num, strTag]⟩
  | sequence _ | set _ | other _ _ _ _ => exact h.elim

theorem holds_answers {v : Value} {x : Content} (h : Holds v x) (hr : Rewritable false v) (hd : Header) :
    Answers (.mk hd x) v := by
  cases v with
  | boolean b => cases h; rfl
  | integer z =>
    obtain ⟨c, h1, rfl, rfl⟩ := h
    exact intAnswers h1
  | bits bs =>
    obtain ⟨u, s, h1, h2, rfl⟩ := h
    have hl := congrArg List.length h1
    rw [bitsOf_length, List.length_append, List.length_replicate] at hl
    have := bitAnswers (h := hd) (u := u) (s := s) h2 (by
      rintro rfl
      simp only [List.length_nil] at hl
      exact UInt8.toNat_inj.1 (by show u.toNat = 0; omega))
    rwa [h1, show 8 * s.length - u.toNat = bs.length by omega, List.take_left] at this
  | octets s => cases h; rfl
  | null => cases h; rfl
  | oid arcs =>
    obtain ⟨c, h1, rfl⟩ := h
    exact ⟨c, rfl, h1⟩
  | relativeOid arcs =>
    obtain ⟨c, _, h1, rfl⟩ := h
    exact ⟨c, rfl, h1⟩
  | text k cs =>
    obtain ⟨_, h2, _, rfl⟩ := h
    exact ⟨h2, rfl, rfl⟩
  | universalText cs =>
    obtain ⟨h1, rfl⟩ := h
    exact ⟨h1, rfl⟩
  | bmp cs =>
    obtain ⟨h1, rfl⟩ := h
    exact ⟨fun x hx => (h1 x hx).1, rfl⟩
  | enumerated z =>
    obtain ⟨h1, h2, rfl⟩ := h
    obtain ⟨_, w1, w2, w3⟩ := hr
    refine ⟨h1, rfl, ?_⟩
    show (if 4294967295 < z.toNat then _ else _) = _
    rw [if_neg (by omega)]
  | utcTime _ | generalizedTime _ => exact hr.2.elim
  | sequence _ | set _ | other _ _ _ _ => exact h.elim

theorem built_list {D : Deps} {P : Value → Prop} {d : Nat} : ∀ {qs : List (Value × BerObject)},
    (∀ q ∈ qs, ∀ e, Encodes D q.2 e ↔ DerCodes D P d q.1 e) → ∀ (c : Bytes),
    EncodesL D (qs.map Prod.snd) c ↔ ∃ ps : List (Value × Bytes), ps.map Prod.fst = qs.map Prod.fst ∧
      c = (ps.map Prod.snd).flatten ∧ ∀ p ∈ ps, DerCodes D P d p.1 p.2
  | [], _, c => by
    constructor
    · intro (h : c = [])
      exact ⟨[], rfl, h, by simp⟩
    · rintro ⟨ps, h1, rfl, _⟩
      cases ps with
      | nil => rfl
      | cons => simp at h1
  | q :: qs, H, c => by
    have ih := built_list (qs := qs) fun x hx => H x (by simp [hx])
    constructor
    · rintro ⟨a, b, rfl, h1, h2⟩
      obtain ⟨ps, k1, rfl, k3⟩ := (ih b).1 h2
      refine ⟨(q.1, a) :: ps, by simp [k1], by simp, ?_⟩
      intro p hp
      rcases List.mem_cons.1 hp with rfl | hp
      · exact (H q (by simp) a).1 h1
      · exact k3 p hp
    · rintro ⟨ps, h1, rfl, h3⟩
      cases ps with
      | nil => simp at h1
      | cons p ps =>
        simp only [List.map_cons, List.cons.injEq] at h1
        refine ⟨p.2, (ps.map Prod.snd).flatten, by simp, (H q (by simp) _).2 ?_,
          (ih _).2 ⟨ps, h1.2, rfl, fun p hp => h3 p (by simp [hp])⟩⟩
        have := h3 p (by simp)
        rwa [h1.1] at this

theorem built_values {qs : List (Value × BerObject)}
    (H : ∀ q ∈ qs, HasValue q.2 q.1) : ∃ rs : List (BerObject × Value), rs.map Prod.fst = qs.map Prod.snd ∧
      rs.map Prod.snd = qs.map Prod.fst ∧ ∀ r ∈ rs, HasValue r.1 r.2 := by
  refine ⟨qs.map fun q => (q.2, q.1), by simp [Function.comp_def], by simp [Function.comp_def], ?_⟩
  intro r hr
  obtain ⟨q, hq, rfl⟩ := List.mem_map.1 hr
  exact H q hq

/-- An object built for a value is written as the DER encoding of the value, and has the value. -/
theorem built_encodes {D : Deps} {P : Value → Prop} (hP : ∀ v, P v → Rewritable false v) {d : Nat} {v : Value}
    {o : BerObject} (H : Built P d v o) :
    TagsOk o ∧ HasValue o v ∧ ∀ e, Encodes D o e ↔ DerCodes D P d v e := by
  have prim : ∀ {d : Nat} {v : Value} {x : Content} {h : Header}, Holds v x → P v → h.cls = .universal →
      h.constructed = false → h.tag = v.num → TagsOk (.mk h x) ∧ HasValue (.mk h x) v ∧
        ∀ e, Encodes D (.mk h x) e ↔ DerCodes D P (d + 1) v e := by
    intro d v x h hx hv h1 h2 h3
    obtain ⟨t1, t2, t3, t4, t5, t6⟩ := holds_tag hx
    refine ⟨⟨by rw [h3]; exact t4, t3⟩, .leaf _ _ (h1.trans t2.symm) h3 (holds_answers hx (hP v hv) h), fun e => ?_⟩
    constructor
    · rintro ⟨b, len, w, rfl, g1, g2, g3⟩
      rw [h1, h2, h3] at g1
      obtain ⟨y1, y2⟩ := (holds_iff hx (hP v hv) w).1 g3
      exact .primitive d [b] len w v (minIdent_octet g1) g2 y1 y2 hv
    · intro he
      cases he with
      | primitive _ id len c _ g1 g2 g3 g4 _ =>
        obtain ⟨b, rfl, g5⟩ := minIdent_one g1 t4
        exact ⟨b, len, c, rfl, by rw [h1, h2, h3]; exact g5, g2, (holds_iff hx (hP v hv) c).2 ⟨g3, g4⟩⟩
      | other _ id len c cls k num g1 => exact hx.elim
      | list _ id len ps num _ g1 g2 =>
        rcases g2 with ⟨_, rfl⟩ | ⟨_, rfl⟩ <;> exact hx.elim
  induction H with
  | content d v x h1 h2 =>
    obtain ⟨t1, t2, t3, t4, t5, t6⟩ := holds_tag h1
    refine prim h1 h2 rfl ?_ t1
    show decide _ = false
    rw [t1]
    exact decide_eq_false fun h => h.elim t5 t6
  | intSlice d z c h1 h2 h3 => exact prim (v := .integer z) ⟨c, h1, h2, rfl⟩ h3 rfl rfl rfl
  | other d cls k num len c h1 h2 =>
    refine ⟨⟨(hP _ h2).2, trivial⟩, .leaf _ _ rfl rfl ⟨h1, rfl, rfl⟩, fun e => ?_⟩
    constructor
    · rintro ⟨b, len', w, rfl, g1, g2, rfl⟩
      exact .other d [b] len' _ _ _ _ h1 (minIdent_octet g1) g2 h2
    · intro he
      cases he with
      | primitive _ id len c _ g1 g2 g3 g4 _ => exact g4.elim
      | other _ id len' c cls k num g1 g2 g3 =>
        obtain ⟨b, rfl, g5⟩ := minIdent_one g2 (hP _ h2).2
        exact ⟨b, len', c, rfl, g5, g3, rfl⟩
      | list _ id len ps num _ g1 g2 => rcases g2 with ⟨_, g2⟩ | ⟨_, g2⟩ <;> cases g2
  | sequence d ps h1 ih =>
    obtain ⟨rs, r1, r2, r3⟩ := built_values fun q hq => (ih q hq).2.1
    refine ⟨⟨show (16 : Nat) ≤ 30 by decide, tagsOk_list ?_⟩, ?_, fun e => ?_⟩
    · intro o ho
      obtain ⟨q, hq, rfl⟩ := List.mem_map.1 ho
      exact (ih q hq).1
    · rw [← r2]
      exact .sequence _ rs rfl rfl (congrArg _ r1.symm) r3
    · constructor
      · rintro ⟨b, len, w, rfl, g1, g2, g3⟩
        obtain ⟨qs, k1, rfl, k3⟩ := (built_list (fun q hq => (ih q hq).2.2) w).1 g3
        rw [← k1]
        exact .list d [b] len qs 16 _ (minIdent_octet g1) (.inl ⟨rfl, rfl⟩) g2 k3
      · intro he
        cases he with
        | primitive _ id len c _ g1 g2 g3 g4 _ => exact g4.elim
        | list _ id len qs num _ g1 g2 g3 g4 =>
          rcases g2 with ⟨rfl, g2⟩ | ⟨_, g2⟩
          · obtain ⟨b, rfl, g5⟩ := minIdent_one g1 (by decide)
            exact ⟨b, len, _, rfl, g5, g3, (built_list (fun q hq => (ih q hq).2.2) _).2
              ⟨qs, (Value.sequence.inj g2).symm, rfl, g4⟩⟩
          · cases g2
  | set d ps h1 ih =>
    obtain ⟨rs, r1, r2, r3⟩ := built_values fun q hq => (ih q hq).2.1
    refine ⟨⟨show (17 : Nat) ≤ 30 by decide, tagsOk_list ?_⟩, ?_, fun e => ?_⟩
    · intro o ho
      obtain ⟨q, hq, rfl⟩ := List.mem_map.1 ho
      exact (ih q hq).1
    · rw [← r2]
      exact .set _ rs rfl rfl (congrArg _ r1.symm) r3
    · constructor
      · rintro ⟨b, len, w, rfl, g1, g2, g3⟩
        obtain ⟨qs, k1, rfl, k3⟩ := (built_list (fun q hq => (ih q hq).2.2) w).1 g3
        rw [← k1]
        exact .list d [b] len qs 17 _ (minIdent_octet g1) (.inr ⟨rfl, rfl⟩) g2 k3
      · intro he
        cases he with
        | primitive _ id len c _ g1 g2 g3 g4 _ => exact g4.elim
        | list _ id len qs num _ g1 g2 g3 g4 =>
          rcases g2 with ⟨_, g2⟩ | ⟨rfl, g2⟩
          · cases g2
          · obtain ⟨b, rfl, g5⟩ := minIdent_one g1 (by decide)
            exact ⟨b, len, _, rfl, g5, g3, (built_list (fun q hq => (ih q hq).2.2) _).2
              ⟨qs, (Value.set.inj g2).symm, rfl, g4⟩⟩

theorem means_holds {D : Deps} {v : Value} {c : Bytes} (h : PrimContents v.num c) (hm : Means D v c)
    (hr : Rewritable false v) : ∃ x, Holds v x := by
  cases v with
  | boolean b => exact ⟨_, rfl⟩
  | integer z => exact ⟨_, c, h, hm, rfl⟩
  | bits bs =>
    obtain ⟨u, s, rfl, h1, h2, h3⟩ := h
    obtain ⟨_, _, e, rfl⟩ := hm
    cases e
    refine ⟨_, u, s, ?_, h1, rfl⟩
    have hu : u.toNat ≤ 8 * s.length := by
      cases s with
      | nil => simp [h2 rfl]
      | cons a s => simp only [List.length_cons]; omega
    refine (List.take_append_drop (8 * s.length - u.toNat) _).symm.trans ?_
    congr 1
    refine List.eq_replicate_iff.2 ⟨?_, h3⟩
    rw [List.length_drop, bitsOf_length]; omega
  | octets s => exact ⟨_, rfl⟩
  | null => exact ⟨_, rfl⟩
  | oid arcs => exact ⟨_, c, hm, rfl⟩
  | relativeOid arcs =>
    refine ⟨_, c, ?_, hm, rfl⟩
    rintro rfl
    cases hm
    obtain ⟨ss, h1, h2, h3⟩ := h
    cases ss with
    | nil => exact h1 rfl
    | cons s ss =>
      obtain ⟨ms, l, rfl, _⟩ := h3 s (by simp)
      simp at h2
  | text k cs =>
    obtain ⟨h1, h2, rfl⟩ := hm
    exact ⟨_, h1, h2, h, rfl⟩
  | universalText cs => exact ⟨_, hm.1, rfl⟩
  | bmp cs =>
    obtain ⟨bs, h1, h2⟩ := h
    obtain ⟨h3, h4⟩ := hm
    obtain rfl := utf16_short h3 h1 (h4.symm.trans h2)
    exact ⟨_, h1, rfl⟩
  | enumerated z =>
    obtain ⟨_, w1, w2, w3⟩ := hr
    exact ⟨_, by omega, by omega, rfl⟩
  | utcTime _ | generalizedTime _ => exact hr.2.elim
  | sequence _ | set _ | other _ _ _ _ => exact hm.elim

theorem built_exists_list {P : Value → Prop} {d : Nat} : ∀ {ps : List (Value × Bytes)},
    (∀ p ∈ ps, ∃ o, Built P d p.1 o) → ∃ qs : List (Value × BerObject), qs.map Prod.fst = ps.map Prod.fst ∧
      ∀ q ∈ qs, Built P d q.1 q.2
  | [], _ => ⟨[], rfl, by simp⟩
  | p :: ps, H => by
    obtain ⟨qs, h1, h2⟩ := built_exists_list (ps := ps) fun x hx => H x (by simp [hx])
    obtain ⟨o, ho⟩ := H p (by simp)
    refine ⟨(p.1, o) :: qs, by simp [h1], ?_⟩
    intro q hq
    rcases List.mem_cons.1 hq with rfl | hq
    · exact ho
    · exact h2 q hq

theorem derCodes_built {D : Deps} {P : Value → Prop} (hP : ∀ v, P v → Rewritable false v) {d : Nat} {v : Value}
    {e : Bytes} (H : DerCodes D P d v e) : ∃ o, Built P d v o := by
  induction H with
  | primitive d id len c v h1 h2 h3 h4 h5 =>
    obtain ⟨x, hx⟩ := means_holds h3 h4 (hP v h5)
    exact ⟨_, .content d v x hx h5⟩
  | other d id len c cls k num h1 h2 h3 h4 => exact ⟨_, .other d cls k num .indefinite c h1 h4⟩
  | list d id len ps num v h1 h2 h3 h4 ih =>
    obtain ⟨qs, k1, k2⟩ := built_exists_list ih
    rw [← k1] at h2
    rcases h2 with ⟨_, rfl⟩ | ⟨_, rfl⟩
    · exact ⟨_, .sequence d qs k2⟩
    · exact ⟨_, .set d qs k2⟩

/-! ## C125 -/

/-- C125 in full: an object that a program builds for a value is written as the DER encoding of that value. -/
def C125Statement : Prop :=
  ∀ (D : Deps) (d : Nat) (v : Value) (o : BerObject), Built (fun _ => True) d v o →
    ∃ e, toVec D o = .ok e ∧ (e.length < 2 ^ 64 → DerCodes D (fun _ => True) d v e)

/-- SEQUENCE { INTEGER 128, ENUMERATED 5 } as a value, an object and octets, to show that the hypotheses below can be met. -/
theorem built_small (d : Nat) : Built (Rewritable false) (d + 2) (.sequence [.integer 128, .enumerated 5])
    (.fromSeq [.fromIntSlice [0x00, 0x80], .fromObj (.enum 5)]) := by
  refine .sequence (d + 1) [(.integer 128, .fromIntSlice [0x00, 0x80]), (.enumerated 5, .fromObj (.enum 5))] ?_
  simp only [List.forall_mem_cons, List.not_mem_nil, false_imp_iff, implies_true, and_true]
  exact ⟨.intSlice d 128 [0x00, 0x80] ⟨by simp, by decide, by decide⟩ (by decide) ⟨rfl, trivial⟩,
    .content d _ _ ⟨by decide, by decide, rfl⟩ ⟨rfl, by decide, by decide, by decide⟩⟩

/-- C125, what holds: so it is for the values that are `Rewritable`; the object has the value, and the DER encoding is the
only one.  Missing: enumerated values that are 0, of 2^32 or more, or with binary digits that fill their octets (see
`C125_enumerated`), times, and tag numbers above 30. -/
theorem C125_written_partial (D : Deps) (P : Value → Prop) (hP : ∀ v, P v → Rewritable false v) (d : Nat) (v : Value)
    (o : BerObject) (H : Built P d v o) : HasValue o v ∧ ∃ e, toVec D o = .ok e ∧ (e.length < 2 ^ 64 →
      DerCodes D P d v e ∧ ∀ e', e'.length < 2 ^ 64 → DerCodes D P d v e' → e' = e) := by
  obtain ⟨h1, h2, h3⟩ := built_encodes (D := D) hP H
  obtain ⟨e, he⟩ := C49_total D _ h1
  refine ⟨h2, e, he, fun hl => ⟨(h3 e).1 ((C49_exact D _ e hl).1 he), fun e' hl' h' => ?_⟩⟩
  have := (C49_exact D _ e' hl').2 ((h3 e').2 h')
  rw [he] at this
  exact (Outcome.ok.inj this).symm

example := C125_written_partial Tests.D0 (Rewritable false) (fun _ h => h) 2 _ _ (built_small 0)

theorem derCodes_small (D : Deps) (d : Nat) : DerCodes D (Rewritable false) (d + 2)
    (.sequence [.integer 128, .enumerated 5]) [0x30, 0x07, 0x02, 0x02, 0x00, 0x80, 0x0a, 0x01, 0x05] := by
  obtain ⟨_, e, h1, h2⟩ := C125_written_partial D (Rewritable false) (fun _ h => h) (d + 2) _ _ (built_small d)
  cases h1
  exact (h2 (by decide)).1

/-- C125: for each DER encoding of a value there is an object that is built for the value, and it is written as that
encoding.  Missing: as above. -/
theorem C125_every_encoding_partial (D : Deps) (P : Value → Prop) (hP : ∀ v, P v → Rewritable false v) (d : Nat) (v : Value)
    (e : Bytes) (H : DerCodes D P d v e) (hl : e.length < 2 ^ 64) : ∃ o, Built P d v o ∧ toVec D o = .ok e := by
  obtain ⟨o, ho⟩ := derCodes_built hP H
  exact ⟨o, ho, (C49_exact D _ e hl).2 (((built_encodes hP ho).2.2 e).2 H)⟩

example := C125_every_encoding_partial Tests.D0 (Rewritable false) (fun _ h => h) 2 _ _ (derCodes_small _ 0) (by decide)

/-- C125: a value has one DER encoding.  Missing: as above. -/
theorem C125_one_encoding_partial (D : Deps) (P : Value → Prop) (hP : ∀ v, P v → Rewritable false v) (d : Nat) (v : Value)
    (e e' : Bytes) (H : DerCodes D P d v e) (H' : DerCodes D P d v e') (hl : e.length < 2 ^ 64) (hl' : e'.length < 2 ^ 64) :
    e' = e := by
  obtain ⟨o, h1, h2⟩ := C125_every_encoding_partial D P hP d v e H hl
  obtain ⟨_, e'', h3, h4⟩ := C125_written_partial D P hP d v o h1
  rw [h2] at h3
  cases h3
  exact (h4 hl).2 e' hl' H'

example := C125_one_encoding_partial Tests.D0 (Rewritable false) (fun _ h => h) 2 _ _ _ (derCodes_small _ 0)
  (derCodes_small _ 0) (by decide) (by decide)

theorem primContents_berPrim {n : Nat} {c : Bytes} (h : PrimContents n c) (h1 : n ≠ 23) (h2 : n ≠ 24) : BerPrim n c := by
  unfold PrimContents at h
  split at h <;>
  first
  | exact h.elim
  | exact h
  | (rcases h with rfl | rfl <;> rfl)
  | (obtain ⟨u, s, h3, h4, h5, _⟩ := h; exact ⟨u, s, h3, h4, h5⟩)
  | exact absurd rfl h1
  | exact absurd rfl h2
  | (unfold BerPrim; split <;> first | contradiction | trivial)

theorem rewritable_supported {D : Deps} {v : Value} {c : Bytes} (hm : Means D v c) (hr : Rewritable false v) :
    Supported D .universal v.num c ∧ v.num ≠ 23 ∧ v.num ≠ 24 ∧ Readable false v := by
  have hlt : v.num < 2 ^ 32 := by have := value_num_lt hm; omega
  cases v with
  | enumerated z =>
    obtain ⟨_, w1, w2, _⟩ := hr
    obtain rfl : twosComplement c = z := hm
    rw [twosComplement_nonneg (by omega)] at w2
    exact ⟨⟨hlt, fun _ => ⟨fun _ => by omega, fun h => absurd h (by simp [Value.num]), fun h => absurd h (by simp [Value.num]),
      fun k hk h => absurd h (by revert hk; cases k <;> simp [Value.num, strTag])⟩⟩, by simp [Value.num], by simp [Value.num],
      rfl, by omega, by rw [twosComplement_nonneg (by omega)]; omega⟩
  | utcTime _ | generalizedTime _ => exact hr.2.elim
  | sequence _ | set _ | other _ _ _ _ => exact hm.elim
  | text k cs =>
    obtain ⟨h1, h2, h3⟩ := hm
    cases k with
    | utf8 | numeric | printable | ia5 | visible =>
      exact ⟨⟨hlt, fun _ => ⟨fun h => absurd h (by simp [Value.num, strTag]), fun h => absurd h (by simp [Value.num, strTag]),
        fun h => absurd h (by simp [Value.num, strTag]),
        fun k hk h => absurd h (by revert hk; cases k <;> simp [Value.num, strTag])⟩⟩, by simp [Value.num, strTag],
        by simp [Value.num, strTag], rfl, trivial⟩
    | _ => simp [PlainText] at h1
  | _ =>
    exact ⟨⟨hlt, fun _ => ⟨fun h => absurd h (by simp [Value.num]), fun h => absurd h (by simp [Value.num]),
      fun h => absurd h (by simp [Value.num]),
      fun k hk h => absurd h (by revert hk; cases k <;> simp [Value.num, strTag])⟩⟩, by simp [Value.num], by simp [Value.num],
      rfl, trivial⟩

/-- C125: the DER encoding of a value is one of its BER encodings, and a DER document within the limits of the library. -/
theorem C125_is_der (D : Deps) (X : Bytes → Prop) (P : Value → Prop) (hP : ∀ v, P v → Rewritable false v) (N d n : Nat)
    (v : Value) (e : Bytes) (H : DerCodes D P d v e) : DerDoc (Supported D) d e ∧
      Codes D X (fun s v => Readable s v ∧ Rewritable s v) (N + 1) d (n + 1) v e := by
  induction H generalizing n with
  | primitive d id len c v h1 h2 h3 h4 h5 =>
    obtain ⟨r1, r2, r3, r4⟩ := rewritable_supported h4 (hP v h5)
    refine ⟨?_, .primitive d n id len c v h1 h2.1 (primContents_berPrim h3 r2 r3) h4 ⟨r4, hP v h5⟩⟩
    rw [← List.append_assoc]
    exact .primitive d id len c _ _ h1 h2 (fun _ => h3) r1
  | other d id len c cls k num h1 h2 h3 h4 =>
    have hn : num ≤ 30 := (hP _ h4).2
    have hs : Supported D cls num c := ⟨by omega, fun h => absurd h h1⟩
    refine ⟨?_, .other d n id len c cls k num h1 h2 h3.1 ⟨⟨rfl, show num < 2 ^ 32 by omega⟩, hP _ h4⟩⟩
    rw [← List.append_assoc]
    cases k with
    | false => exact .primitive d id len c _ _ h2 h3 (fun h => absurd h h1) hs
    | true => exact .constructed d id len c _ _ h2 h3 (.inl h1) hs
  | list d id len ps num v h1 h2 h3 h4 ih =>
    refine ⟨?_, .list d n id len ps num v h1 h2 h3.1 fun p hp => (ih p hp N).2⟩
    rw [← List.append_assoc]
    refine .list d id len _ num h1 (h2.elim (fun h => .inl h.1) fun h => .inr h.1) h3 ?_
    intro e he
    obtain ⟨p, hp, rfl⟩ := List.mem_map.1 he
    exact (ih p hp 0).1

example := C125_is_der Tests.D0 (fun _ => False) (Rewritable false) (fun _ h => h) 0 2 0 _ _ (derCodes_small _ 0)

theorem codes_weaken {D : Deps} {X : Bytes → Prop} {P Q : Bool → Value → Prop} (hPQ : ∀ s v, P s v → Q s v) {N d n : Nat}
    {v : Value} {e : Bytes} (H : Codes D X P N d n v e) : Codes D X Q N d n v e := by
  induction H with
  | primitive d n id len c v h1 h2 h3 h4 h5 => exact .primitive d n id len c v h1 h2 h3 h4 (hPQ _ _ h5)
  | other d n id len c cls k num h0 h1 h2 h3 => exact .other d n id len c cls k num h0 h1 h2 (hPQ _ _ h3)
  | otherIndefinite d n id es cls num h0 h1 h3 h4 => exact .otherIndefinite d n id es cls num h0 h1 (hPQ _ _ h3) h4
  | list d n id len ps num v h1 h2 h3 h4 ih => exact .list d n id len ps num v h1 h2 h3 ih
  | listIndefinite d n id ps num v h1 h2 h3 h4 ih => exact .listIndefinite d n id ps num v h1 h2 ih h4
  | segments d n id len ps h1 h2 h3 h4 ih => exact .segments d n id len ps h1 h2 (hPQ _ _ h3) ih
  | segmentsIndefinite d n id ps h1 h2 h3 h4 ih => exact .segmentsIndefinite d n id ps h1 (hPQ _ _ h2) ih h4

/-- C125: what is written is read back by `parse_ber`, up to the end, with the value.  Missing: as above; at most 50 levels. -/
theorem C125_read_back_partial (D : Deps) (P : Value → Prop) (hP : ∀ v, P v → Rewritable false v) (v : Value)
    (o : BerObject) (H : Built P 50 v o) : ∃ e, toVec D o = .ok e ∧ (e.length < 2 ^ 64 → ∀ rest, ∃ o',
      parseBer D (e ++ rest) = .ok (rest, o') ∧ HasValue o' v) := by
  obtain ⟨_, e, h1, h2⟩ := C125_written_partial D P hP 50 v o H
  refine ⟨e, h1, fun hl rest => ?_⟩
  have hc := (C125_is_der D LooseEoc (fun v => P v) hP 49 50 49 v e (h2 hl).1).2
  obtain ⟨o', h3, h4, _⟩ := C124_rewritten_partial D 50 v e rest hc hl
  exact ⟨o', h3, h4⟩

example := C125_read_back_partial Tests.D0 (Rewritable false) (fun _ h => h) _ _ (built_small 48)

/-- C125: and by `parse_der`, if there are fewer than 2^32 octets. -/
theorem C125_read_back_der_partial (D : Deps) (hT : TimesKnown D) (P : Value → Prop) (hP : ∀ v, P v → Rewritable false v)
    (v : Value) (o : BerObject) (H : Built P 50 v o) : ∃ e, toVec D o = .ok e ∧ (e.length < 2 ^ 32 → ∀ rest, ∃ o',
      parseDer D (e ++ rest) = .ok (rest, o') ∧ HasValue o' v) := by
  obtain ⟨_, e, h1, h2⟩ := C125_written_partial D P hP 50 v o H
  refine ⟨e, h1, fun hl rest => ?_⟩
  have hl' : e.length < 2 ^ 64 := by omega
  have hc := C125_is_der D LooseEoc P hP 49 50 49 v e (h2 hl').1
  obtain ⟨o', h3⟩ := C102_accepted_partial D hT e rest hc.1 hl
  exact ⟨o', h3, (C123_der_partial D hT 49 v e rest rest o' (codes_weaken (fun _ _ h => h.1) hc.2) hl' h3).2⟩

example := C125_read_back_der_partial Tests.D0 timesKnown_D0 (Rewritable false) (fun _ h => h) _ _ (built_small 48)

theorem derCodes_prim {D : Deps} {d : Nat} {v : Value} {b : UInt8} {len w : Bytes} (hn : v.num ≤ 30)
    (hv : ∀ cls k num c, v ≠ .other cls k num c) (hs : ∀ vs, v ≠ .sequence vs ∧ v ≠ .set vs)
    (h1 : IdentOctets [b] .universal false v.num) (h2 : MinLen len w.length) (hl : (b :: (len ++ w)).length < 2 ^ 64) :
    DerCodes D (fun _ => True) (d + 1) v (b :: (len ++ w)) ↔ PrimContents v.num w ∧ Means D v w := by
  simp only [List.length_cons, List.length_append] at hl
  constructor
  · intro h
    generalize he : b :: (len ++ w) = e at h
    have hb := berHeader_of (minIdent_octet h1) h2.1 (by omega) (by omega)
    cases h with
    | primitive _ id len' c _ g1 g2 g3 g4 _ =>
      have hle := congrArg List.length he
      simp only [List.length_cons, List.length_append] at hle
      have hb' := berHeader_of g1 g2.1 (by omega) (by omega)
      have e1 : ([b] ++ len) ++ w = (id ++ len') ++ c := by rw [List.append_assoc, List.append_assoc]; exact he
      obtain ⟨e2, _⟩ := berHeader_unique hb hb' e1
      rw [e2] at e1
      rw [List.append_cancel_left e1]
      exact ⟨g3, g4⟩
    | other _ id len c cls k num => exact absurd rfl (hv cls k num c)
    | list _ id len ps num _ g1 g2 =>
      rcases g2 with ⟨_, g2⟩ | ⟨_, g2⟩
      · exact absurd g2 (hs _).1
      · exact absurd g2 (hs _).2
  · rintro ⟨g1, g2⟩
    exact .primitive d [b] len w v (minIdent_octet h1) h2 g1 g2 trivial

/-- C125: which enumerated values are written right. -/
theorem C125_enumerated (D : Deps) (n : Nat) (hn : n < 2 ^ 64) : ∃ e, toVec D (.fromObj (.enum n)) = .ok e ∧
    (DerCodes D (fun _ => True) 1 (.enumerated n) e ↔ 0 < n ∧ n.log2 % 8 ≠ 7) := by
  have hm := (minOctets_iff (v := skipZeroes (toBeBytes 8 n)) (n := n) (by omega)).2 rfl
  generalize skipZeroes (toBeBytes 8 n) = w at hm
  have hw : w.length ≤ 8 := by
    have := hm.2 (toBeBytes 8 n) (by rw [base256_toBeBytes, Nat.mod_eq_of_lt (by omega)])
    rwa [toBeBytes_length] at this
  have h2 : MinLen [UInt8.ofNat w.length] w.length := by
    have := minLen_short (UInt8.ofNat w.length) (by simp; omega)
    rwa [show (UInt8.ofNat w.length).toNat = w.length by simp; omega] at this
  have h1 : IdentOctets [0x0a] .universal false 10 := (minIdent_low 0x0a (by decide)).1
  have hl : (0x0a :: ([UInt8.ofNat w.length] ++ w)).length < 2 ^ 64 := by simp; omega
  refine ⟨_, (C49_exact D _ _ hl).2 ⟨0x0a, [UInt8.ofNat w.length], w, rfl, h1, h2, ?_⟩, ?_⟩
  · show MinOctets w (n % 2 ^ 64)
    rwa [Nat.mod_eq_of_lt hn]
  rw [derCodes_prim (v := .enumerated n) (by simp [Value.num]) (by simp) (by simp) h1 h2 hl]
  constructor
  · rintro ⟨g1, g2⟩
    replace g1 : MinInt w := g1
    replace g2 : twosComplement w = n := g2
    have hv := twosComplement_nonneg (bs := w) (by omega)
    have e : base256 w = n := hm.1
    subst e
    have hh := head_of_minOctets hm
    match w, hh with
    | [], _ => exact absurd rfl g1.1
    | a :: r, hh =>
      have ha : a ≠ 0 := by simpa using hh
      have hb : a.toNat < 128 := Classical.byContradiction fun hb => by
        have := (isHighestBitSet_iff (a :: r)).1 (by simp [isHighestBitSet]; omega)
        omega
      refine ⟨Nat.pos_of_ne_zero fun h0 => ?_, (base256_top rfl).2 ha hb⟩
      rw [base256] at h0
      have h3 : 0 < 256 ^ r.length := Nat.pow_pos (by decide)
      have h4 : 0 < a.toNat := Nat.pos_of_ne_zero fun h => ha (UInt8.toNat_inj.1 h)
      have := Nat.mul_pos h4 h3
      omega
  · rintro ⟨g1, g2⟩
    exact (minOctets_minInt g1 g2).1 hm

example := C125_enumerated Tests.D0 300 (by decide)

/-- C125: times are written right if the date library displays them in the form that DER asks for, and reads that back. -/
theorem C125_times (D : Deps) (t : DateTime) (hl : (D.display t).length < 128) :
    (∃ e, toVec D (.fromObj (.utcTime t)) = .ok e ∧ (DerCodes D (fun _ => True) 1 (.utcTime t) e ↔
      UtcContents (D.display t) ∧ D.utcTime false (D.display t) = .ok t)) ∧
    (∃ e, toVec D (.fromObj (.generalizedTime t)) = .ok e ∧ (DerCodes D (fun _ => True) 1 (.generalizedTime t) e ↔
      GeneralizedContents (D.display t) ∧ D.generalizedTime false (D.display t) = .ok t)) := by
  generalize hw : D.display t = w at hl
  have h2 : MinLen [UInt8.ofNat w.length] w.length := by
    have := minLen_short (UInt8.ofNat w.length) (by simp; omega)
    rwa [show (UInt8.ofNat w.length).toNat = w.length by simp; omega] at this
  constructor
  · have h1 : IdentOctets [0x17] .universal false 23 := (minIdent_low 0x17 (by decide)).1
    have hl : (0x17 :: ([UInt8.ofNat w.length] ++ w)).length < 2 ^ 64 := by simp; omega
    refine ⟨_, (C49_exact D _ _ hl).2 ⟨0x17, [UInt8.ofNat w.length], w, rfl, h1, h2, hw.symm⟩, ?_⟩
    rw [derCodes_prim (v := .utcTime t) (by simp [Value.num]) (by simp) (by simp) h1 h2 hl]
    rfl
  · have h1 : IdentOctets [0x18] .universal false 24 := (minIdent_low 0x18 (by decide)).1
    have hl : (0x18 :: ([UInt8.ofNat w.length] ++ w)).length < 2 ^ 64 := by simp; omega
    refine ⟨_, (C49_exact D _ _ hl).2 ⟨0x18, [UInt8.ofNat w.length], w, rfl, h1, h2, hw.symm⟩, ?_⟩
    rw [derCodes_prim (v := .generalizedTime t) (by simp [Value.num]) (by simp) (by simp) h1 h2 hl]
    rfl

example (t : DateTime) := C125_times { Tests.D0 with display := fun _ => [57, 57, 48, 49, 48, 49, 48, 48, 48, 48, 48, 48, 90] } t
  (by simp)

/-- C125 is false for enumerated values: 128 is written as the DER encoding of -128. -/
theorem C125_enumerated_counterexample (D : Deps) :
    Built (fun _ => True) 1 (.enumerated 128) (.fromObj (.enum 128)) ∧
    toVec D (.fromObj (.enum 128)) = .ok [0x0a, 0x01, 0x80] ∧
    DerCodes D (fun _ => True) 1 (.enumerated (-128)) [0x0a, 0x01, 0x80] ∧
    ¬ DerCodes D (fun _ => True) 1 (.enumerated 128) [0x0a, 0x01, 0x80] := by
  have h1 : IdentOctets [0x0a] .universal false 10 := (minIdent_low 0x0a (by decide)).1
  have h2 := minLen_short 1 (by decide)
  refine ⟨.content 0 _ _ ⟨by decide, by decide, rfl⟩ trivial, rfl, ?_, ?_⟩
  · exact (derCodes_prim (len := [1]) (w := [0x80]) (v := .enumerated (-128)) (by simp [Value.num]) (by simp) (by simp) h1 h2
      (by decide)).2 ⟨⟨by simp, by decide, by decide⟩, (by decide : twosComplement [0x80] = -128)⟩
  · intro h
    obtain ⟨_, h⟩ := (derCodes_prim (len := [1]) (w := [0x80]) (v := .enumerated 128) (by simp [Value.num]) (by simp) (by simp)
      h1 h2 (by decide)).1 h
    exact absurd (show twosComplement [0x80] = 128 from h) (by decide)

/-- C125 as stated is false. -/
theorem C125_full_counterexample : ¬ C125Statement := fun H => by
  obtain ⟨h1, h2, _, h3⟩ := C125_enumerated_counterexample Tests.D0
  obtain ⟨e, h4, h5⟩ := H Tests.D0 1 _ _ h1
  rw [h2] at h4
  cases h4
  exact h3 (h5 (by decide))

/-- The hypotheses can be met: SEQUENCE of INTEGER 128, BIT STRING 101, ENUMERATED 5 and an empty SET. -/
example : Built (Rewritable false) 2
    (.sequence [.integer 128, .bits [true, false, true], .enumerated 5, .set []])
    (.fromSeq [.fromIntSlice [0x00, 0x80], .fromObj (.bitString 5 [0xa0]), .fromObj (.enum 5), .fromSet []]) := by
  refine .sequence 1 [(.integer 128, .fromIntSlice [0x00, 0x80]), (.bits [true, false, true], .fromObj (.bitString 5 [0xa0])),
    (.enumerated 5, .fromObj (.enum 5)), (.set [], .fromSet [])] ?_
  simp only [List.forall_mem_cons, List.not_mem_nil, false_imp_iff, implies_true, and_true]
  exact ⟨.intSlice 0 128 [0x00, 0x80] ⟨by simp, by decide, by decide⟩ (by decide) ⟨rfl, trivial⟩,
    .content 0 _ _ ⟨5, [0xa0], by decide, by decide, rfl⟩ ⟨rfl, trivial⟩,
    .content 0 _ _ ⟨by decide, by decide, rfl⟩ ⟨rfl, by decide, by decide, by decide⟩, .set 0 [] (by simp)⟩

end Verif
