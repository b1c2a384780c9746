import Verif.SpecDer
import Verif.Props.Survive
import Verif.Lemmas.Oid
/-!
# Property C102: every DER document is accepted
-/
namespace Verif
open Outcome Spec

/-! ## Lemmas -/

theorem isUtf8_ascii {c : Bytes} (h : ∀ b ∈ c, b.toNat ≤ 127) : IsUtf8 c := by
  refine ⟨c.map UInt8.toNat, ?_, ?_⟩
  · intro x hx
    obtain ⟨b, hb, rfl⟩ := List.mem_map.1 hx
    have := h b hb
    exact .inl (by omega)
  · induction c with
    | nil => rfl
    | cons b c ih =>
      have hb := h b (by simp)
      simp only [List.map_cons, List.flatMap_cons]
      rw [← ih (fun x hx => h x (by simp [hx])), utf8Enc, if_pos (by omega)]
      simp

theorem minIdent_length {id : Bytes} {cls : Class} {k : Bool} {num : Nat} (h : MinIdent id cls k num)
    (hn : num < 2 ^ 32) : id.length ≤ 6 := by
  obtain ⟨h1, h2⟩ := h
  cases h1 with
  | low b hb => simp
  | high b ms last hb hm hl =>
    generalize hN : base128 (ms ++ [last]) = N at *
    have key : ∀ n, n < 128 → (UInt8.ofNat (128 + n)).toNat = 128 + n := by intro n hn; simp; omega
    have h3 := IdentOctets.high b [UInt8.ofNat (128 + N / 268435456 % 128), UInt8.ofNat (128 + N / 2097152 % 128),
      UInt8.ofNat (128 + N / 16384 % 128), UInt8.ofNat (128 + N / 128 % 128)] (UInt8.ofNat (N % 128)) hb (by
        intro m hm
        simp only [List.mem_cons, List.not_mem_nil, or_false] at hm
        rcases hm with rfl | rfl | rfl | rfl <;> rw [key _ (Nat.mod_lt _ (by decide))] <;> omega) (by simp; omega)
    have h4 : base128 ([UInt8.ofNat (128 + N / 268435456 % 128), UInt8.ofNat (128 + N / 2097152 % 128),
      UInt8.ofNat (128 + N / 16384 % 128), UInt8.ofNat (128 + N / 128 % 128)] ++ [UInt8.ofNat (N % 128)]) = N := by
      simp only [List.cons_append, List.nil_append, base128, key _ (Nat.mod_lt _ (by decide : 0 < 128)),
        List.length_cons, List.length_nil, UInt8.toNat_ofNat']
      omega
    rw [h4] at h3
    exact h2 _ h3

theorem leaf_exists {D : Deps} {h : Header} {c : Bytes} (hc : h.cls = .universal) (hk : h.constructed = false)
    (hl : h.length = .definite c.length) : ∀ num, h.tag = num → PrimContents num c → Supported D .universal num c →
      ∃ x, Leaf D h c x
  | 0, _, p, _ | 8, _, p, _ | 11, _, p, _ | 16, _, p, _ | 17, _, p, _ | 29, _, p, _ => p.elim
  | 1, t, p, _ => by
    rcases p with rfl | rfl
    · exact ⟨.boolean false, hc, t, hl, 0, rfl, rfl⟩
    · exact ⟨.boolean true, hc, t, hl, 0xff, rfl, rfl⟩
  | 2, t, _, _ => ⟨.integer c, hc, t, rfl⟩
  | 3, t, p, _ => by
    obtain ⟨u, s, rfl, _⟩ := p
    exact ⟨.bitString u s, hc, t, hk, rfl⟩
  | 4, t, _, _ => ⟨.octetString c, hc, t, rfl⟩
  | 5, t, _, _ => ⟨.null, hc, t⟩
  | 6, t, _, _ => ⟨.oid c, hc, t, rfl⟩
  | 7, t, _, s => ⟨.str .objectDescriptor c, hc, t, hk, rfl, .inr ((s.2 rfl).2.2.2 .objectDescriptor (by simp) rfl).2,
      ((s.2 rfl).2.2.2 .objectDescriptor (by simp) rfl).1⟩
  | 9, t, _, _ => ⟨.unknown ⟨h, c⟩, rfl, .inr (.inl (by simp [t]))⟩
  | 10, t, _, s => ⟨.enum (base256 c), hc, t, hk, rfl, (s.2 rfl).1 rfl⟩
  | 12, t, p, _ => ⟨.str .utf8 c, hc, t, hk, rfl, .inl rfl, p⟩
  | 13, t, _, _ => ⟨.relativeOid c, hc, t, rfl⟩
  | 14, t, _, _ => ⟨.unknown ⟨h, c⟩, rfl, .inr (.inl (by simp [t]))⟩
  | 15, t, _, _ => ⟨.unknown ⟨h, c⟩, rfl, .inr (.inl (by simp [t]))⟩
  | 18, t, p, _ => ⟨.str .numeric c, hc, t, hk, rfl, p,
      isUtf8_ascii fun b hb => by rcases p b hb with h | h; omega; have := h.2; omega⟩
  | 19, t, p, _ => by
    refine ⟨.str .printable c, hc, t, hk, rfl, p, isUtf8_ascii fun b hb => ?_⟩
    rcases p b hb with h | h | h | h
    · omega
    · omega
    · have := h.2; omega
    · simp only [List.mem_cons, List.not_mem_nil, or_false] at h; omega
  | 20, t, _, s => ⟨.str .t61 c, hc, t, hk, rfl, .inr ((s.2 rfl).2.2.2 .t61 (by simp) rfl).2,
      ((s.2 rfl).2.2.2 .t61 (by simp) rfl).1⟩
  | 21, t, _, s => ⟨.str .videotex c, hc, t, hk, rfl, .inr ((s.2 rfl).2.2.2 .videotex (by simp) rfl).2,
      ((s.2 rfl).2.2.2 .videotex (by simp) rfl).1⟩
  | 22, t, p, _ => ⟨.str .ia5 c, hc, t, hk, rfl, p, isUtf8_ascii p⟩
  | 23, t, _, s => let ⟨x, hx⟩ := (s.2 rfl).2.1 rfl; ⟨.utcTime x, hc, t, by rw [hk]; exact hx⟩
  | 24, t, _, s => let ⟨x, hx⟩ := (s.2 rfl).2.2.1 rfl; ⟨.generalizedTime x, hc, t, by rw [hk]; exact hx⟩
  | 25, t, _, s => ⟨.str .graphic c, hc, t, hk, rfl, .inr ((s.2 rfl).2.2.2 .graphic (by simp) rfl).2,
      ((s.2 rfl).2.2.2 .graphic (by simp) rfl).1⟩
  | 26, t, p, _ => ⟨.str .visible c, hc, t, hk, rfl, fun b hb => ⟨(p b hb).1, by have := (p b hb).2; omega⟩,
      isUtf8_ascii fun b hb => by have := (p b hb).2; omega⟩
  | 27, t, _, s => ⟨.str .general c, hc, t, hk, rfl, .inr ((s.2 rfl).2.2.2 .general (by simp) rfl).2,
      ((s.2 rfl).2.2.2 .general (by simp) rfl).1⟩
  | 28, t, _, _ => ⟨.universalString c, hc, t, hk, rfl⟩
  | 30, t, p, _ => by
    obtain ⟨cs, h1, h2⟩ := p
    exact ⟨.bmpString c, hc, t, hk, rfl, cs, fun x hx => (h1 x hx).1, h2⟩
  | n + 31, t, _, _ => ⟨.unknown ⟨h, c⟩, rfl, .inr (.inr (by omega))⟩

theorem primContents_rules {num : Nat} {c : Bytes} (p : PrimContents num c) : DerRules num c := by
  constructor
  · rintro rfl; exact p
  · rintro rfl; exact ⟨p.1, p.2.1⟩
  · rintro rfl u s rfl
    obtain ⟨u', s', e, h1, _, h2⟩ := p
    cases e
    exact ⟨h1, h2⟩
  · rintro (rfl | rfl)
    · obtain ⟨ds, _, _, rfl⟩ := p
      simp
    · obtain ⟨ds, fs, _, _, rfl, _⟩ := p
      simp [← List.append_assoc]

theorem minHeader_of {id len c : Bytes} {cls : Class} {k : Bool} {num : Nat} (h1 : MinIdent id cls k num)
    (h2 : MinLen len c.length) (hn : num < 2 ^ 32) (hl : c.length < 2 ^ 64) :
    DerHeader (id ++ len) ⟨cls, k, num, .definite c.length, some id⟩ :=
  ⟨⟨⟨id, len, num, rfl, h1.1, h2.1, (Nat.mod_eq_of_lt hn).symm, minIdent_length h1 hn, rfl⟩,
    fun n hn => by cases hn; exact hl, by simp⟩, by simp⟩

theorem derDoc_denotes {D : Deps} {d : Nat} {e : Bytes} (H : DerDoc (Supported D) d e) (hl : e.length < 2 ^ 64) :
    ∃ hb h c, e = hb ++ c ∧ DerHeader hb h ∧ h.length = .definite c.length ∧
      (h.cls = .universal → DerRules h.tag c) ∧
      ∀ h' : Header, h'.cls = h.cls → h'.constructed = h.constructed → h'.tag = h.tag → h'.length = h.length →
        ∃ x, Denotes D d h' c x := by
  induction H with
  | primitive d id len c cls num h1 h2 h3 h4 =>
    refine ⟨_, _, c, rfl, minHeader_of h1 h2 h4.1 (by simp only [List.length_append] at hl; omega), rfl,
      fun hu => primContents_rules (h3 hu), fun h' g1 g2 g3 g4 => ?_⟩
    by_cases hu : cls = .universal
    · subst hu
      obtain ⟨x, hx⟩ := leaf_exists g1 g2 g4 num g3 (h3 rfl) h4
      exact ⟨x, .leaf _ _ _ _ hx⟩
    · exact ⟨.unknown ⟨h', c⟩, .leaf _ _ _ _ ⟨rfl, .inl (by rw [g1]; exact hu)⟩⟩
  | constructed d id len c cls num h1 h2 h3 h4 =>
    refine ⟨_, _, c, rfl, minHeader_of h1 h2 h4.1 (by simp only [List.length_append] at hl; omega), rfl,
      fun hu => ?_, fun h' g1 g2 g3 g4 => ⟨.unknown ⟨h', c⟩, .leaf _ _ _ _ ⟨rfl, ?_⟩⟩⟩
    · have hu : cls = .universal := hu
      have : num = 8 ∨ num = 11 ∨ num = 29 := h3.resolve_left (absurd hu)
      constructor <;> intros <;> simp only at * <;> omega
    · rcases h3 with h3 | h3
      · exact .inl (by rw [g1]; exact h3)
      · refine .inr (.inl ?_)
        rw [g3]
        simp only
        rcases h3 with rfl | rfl | rfl <;> decide
  | list d id len es num h1 hn h2 h3 ih =>
    have hlen : es.flatten.length < 2 ^ 64 := by simp only [List.length_append] at hl; omega
    have hn' : num < 2 ^ 32 := by omega
    refine ⟨_, _, es.flatten, rfl, minHeader_of h1 h2 hn' hlen, rfl, fun hu => ?_, fun h' g1 g2 g3 g4 => ?_⟩
    · constructor <;> intros <;> simp only at * <;> omega
    · have items : ∃ items : List Item, items.flatMap Item.bytes = es.flatten ∧
          (∀ it ∈ items, Framed 50 it.bytes it.header it.body) ∧
          (∀ it ∈ items, Denotes D d it.header it.body it.value) := by
        have hle : ∀ e ∈ es, e.length < 2 ^ 64 := fun e he => Nat.lt_of_le_of_lt (length_le_flatten he) hlen
        clear h1 h2 h3 g1 g2 g3 g4 hlen hl
        induction es with
        | nil => exact ⟨[], rfl, by simp, by simp⟩
        | cons e es ih' =>
          obtain ⟨items, k1, k2, k3⟩ := ih' (fun e he => ih e (by simp [he])) (fun e he => hle e (by simp [he]))
          obtain ⟨hb, h, c, rfl, m1, m2, _, m3⟩ := ih e (by simp) (hle e (by simp))
          obtain ⟨x, hx⟩ := m3 h rfl rfl rfl rfl
          refine ⟨⟨hb ++ c, h, c, x⟩ :: items, by simp [k1], ?_, ?_⟩
          · intro it hit
            rcases List.mem_cons.1 hit with rfl | hit
            · exact .definite hb c h m1.toBerHeader m2
            · exact k2 it hit
          · intro it hit
            rcases List.mem_cons.1 hit with rfl | hit
            · exact hx
            · exact k3 it hit
      obtain ⟨items, k1, k2, k3⟩ := items
      rw [← k1]
      rcases hn with rfl | rfl
      · exact ⟨_, .sequence d h' items g1 g3 g2 k2 k3⟩
      · exact ⟨_, .set d h' items g1 g3 g2 k2 k3⟩

/-! ## C102 -/

/-- C102 in full: `parse_der` accepts every DER document (of less than 2^32 octets). -/
def C102Statement : Prop :=
  ∀ (D : Deps) (d : Nat) (e : Bytes), DerDoc (fun _ _ _ => True) d e → e.length < 2 ^ 32 →
    ∃ o, parseDer D e = .ok ([], o)

theorem identOctets_lt {id : Bytes} {cls : Class} {k : Bool} {num : Nat} (h : IdentOctets id cls k num) :
    1 ≤ id.length ∧ (num < 31 ∨ num < 128 ^ (id.length - 1)) := by
  cases h with
  | low b hb => exact ⟨by simp, .inl (by omega)⟩
  | high b ms last hb hm hl =>
    have h1 := base128_lt (ms ++ [last])
    exact ⟨by simp, .inr (by simpa using h1)⟩

theorem minIdent_low (b : UInt8) (hb : b.toNat % 32 ≠ 31) : MinIdent [b] (classOf b) (constructedBit b) (b.toNat % 32) :=
  ⟨.low b hb, fun _ h => (identOctets_lt h).1⟩

theorem minLen_short (b : UInt8) (hb : b.toNat < 128) : MinLen [b] b.toNat :=
  ⟨.short b hb, fun len' h => by
    cases len' with
    | nil => cases h
    | cons x xs => simp⟩

/-- SEQUENCEs inside one another, `n + 1` levels. -/
def Tests.nest : Nat → Bytes
  | 0 => [0x30, 0x00]
  | n + 1 => 0x30 :: UInt8.ofNat (2 * n + 2) :: Tests.nest n

theorem nest_length (n : Nat) : (Tests.nest n).length = 2 * n + 2 := by
  induction n with
  | zero => rfl
  | succ n ih => simp only [Tests.nest, List.length_cons, ih]; omega

theorem nest_derDoc (P : Class → Nat → Bytes → Prop) (n : Nat) (hn : n < 60) : DerDoc P (n + 1) (Tests.nest n) := by
  induction n with
  | zero => exact .list 0 [0x30] [0x00] [] 16 (minIdent_low 0x30 (by decide)) (.inl rfl) (minLen_short 0 (by decide)) (by simp)
  | succ n ih =>
    have e : (UInt8.ofNat (2 * n + 2)).toNat = 2 * n + 2 := by simp; omega
    have hm := minLen_short (UInt8.ofNat (2 * n + 2)) (by omega)
    rw [e] at hm
    have := DerDoc.list (P := P) (n + 1) [0x30] [UInt8.ofNat (2 * n + 2)] [Tests.nest n] 16
      (minIdent_low 0x30 (by decide)) (.inl rfl) (by simpa [nest_length] using hm) (by simpa using ih (by omega))
    simpa [Tests.nest] using this

/-- C102, what holds: DER documents within the limits `Supported` and with at most 50 levels are accepted by `parse_der`,
whatever follows.  Missing: documents beyond the limits (see the counterexamples). -/
theorem C102_accepted_partial (D : Deps) (hT : TimesKnown D) (e rest : Bytes) (H : DerDoc (Supported D) 50 e)
    (hl : e.length < 2 ^ 32) : ∃ o, parseDer D (e ++ rest) = .ok (rest, o) := by
  obtain ⟨hb, h, c, rfl, h1, h2, h3, h4⟩ := derDoc_denotes H (by omega)
  have hc : c.length ≤ 4294967295 := by simp only [List.length_append] at hl; omega
  by_cases hu : h.cls = .universal
  · obtain ⟨x, hx⟩ := h4 (Header.new .universal h.constructed h.tag h.length) hu.symm rfl rfl rfl
    exact ⟨.mk h x, (C63_parse_der_exact D hT 49 _ _ (.mk h x)).2 ⟨hb, c, rfl, h1, h2, hc, .inr ⟨hu, h3 hu, hx⟩⟩⟩
  · exact ⟨.mk h (.unknown ⟨h, c⟩), (C63_parse_der_exact D hT 49 _ _ (.mk h (.unknown ⟨h, c⟩))).2
      ⟨hb, c, rfl, h1, h2, hc, .inl ⟨hu, rfl⟩⟩⟩

example := C102_accepted_partial Tests.D0 (fun _ _ _ => by simp [Tests.D0]) (Tests.nest 49) [0x07] (nest_derDoc _ 49 (by decide)) (by decide)

/-- C102: `parse_ber` accepts them as well. -/
theorem C102_accepted_ber_partial (D : Deps) (e rest : Bytes) (H : DerDoc (Supported D) 50 e)
    (hl : e.length < 2 ^ 64) : ∃ o, parseBer D (e ++ rest) = .ok (rest, o) := by
  obtain ⟨hb, h, c, rfl, h1, h2, h3, h4⟩ := derDoc_denotes H hl
  obtain ⟨x, hx⟩ := h4 h rfl rfl rfl rfl
  exact ⟨.mk h x, parseBerRecursive_iff.2 ⟨_, c, rfl, .definite hb c h h1.toBerHeader h2, hx⟩⟩

example := C102_accepted_ber_partial Tests.D0 (Tests.nest 49) [0x07] (nest_derDoc _ 49 (by decide)) (by decide)

/-- C102 is false for strings of registered character sets: a TeletexString with the letter e-acute in the encoding of
ISO 8859-1 is refused, because all such strings have to be UTF-8. -/
theorem C102_t61_counterexample (D : Deps) : DerDoc (fun _ _ _ => True) 1 [0x14, 0x01, 0xe9] ∧
    parseDer D [0x14, 0x01, 0xe9] = .err (.error .stringInvalidCharset) := by
  refine ⟨.primitive 0 [0x14] [0x01] [0xe9] _ _ (minIdent_low 0x14 (by decide)) (minLen_short 1 (by decide))
    (fun _ => trivial) trivial, ?_⟩
  have e : derReadElementContentAs D [0xe9] 20 (.definite 1) false 50 =
      (liftRes ((strFromAny D .t61 ⟨Header.new .universal false 20 (.definite 1), [0xe9]⟩).map
        (BerObject.mk (Header.new .universal false 20 (.definite 1)))) >>? fun o => .ok ([], o.content)) := rfl
  have hs : strFromAny D .t61 ⟨Header.new .universal false 20 (.definite 1), [0xe9]⟩ = .err .stringInvalidCharset := by
    simp [strFromAny, Header.new, validUtf8]
  rw [hs] at e
  have e2 : parseDer D [0x14, 0x01, 0xe9] =
      derReadElementContentRecursive D [0xe9] ⟨.universal, false, 20, .definite 1, some [0x14]⟩ 50 := rfl
  rw [e2]
  unfold derReadElementContentRecursive
  rw [if_neg (by simp), e]
  rfl

/-- C102 is false for enumerated values of 2^32 and above. -/
theorem C102_enumerated_counterexample (D : Deps) :
    DerDoc (fun _ _ _ => True) 1 [0x0a, 0x05, 0x01, 0x00, 0x00, 0x00, 0x00] ∧
    parseDer D [0x0a, 0x05, 0x01, 0x00, 0x00, 0x00, 0x00] = .err (.error .integerTooLarge) :=
  ⟨.primitive 0 [0x0a] [0x05] [0x01, 0x00, 0x00, 0x00, 0x00] _ _ (minIdent_low 0x0a (by decide))
    (minLen_short 5 (by decide)) (fun _ => ⟨by simp, by decide, by decide⟩) trivial, rfl⟩

/-- C102 is false for tag numbers of 2^35 and above. -/
theorem C102_tag_counterexample (D : Deps) :
    DerDoc (fun _ _ _ => True) 1 [0x9f, 0x81, 0x80, 0x80, 0x80, 0x80, 0x00, 0x00] ∧
    parseDer D [0x9f, 0x81, 0x80, 0x80, 0x80, 0x80, 0x00, 0x00] = .err (.error .invalidTag) := by
  refine ⟨.primitive 0 [0x9f, 0x81, 0x80, 0x80, 0x80, 0x80, 0x00] [0x00] [] .contextSpecific (2 ^ 35) ⟨?_, ?_⟩
    (minLen_short 0 (by decide)) (by simp) trivial, rfl⟩
  · exact .high 0x9f [0x81, 0x80, 0x80, 0x80, 0x80] 0x00 (by decide) (by decide) (by decide)
  · intro id' h
    obtain ⟨_, h1 | h1⟩ := identOctets_lt h
    · exact absurd h1 (by decide)
    · rcases Nat.lt_or_ge id'.length 7 with h2 | h2
      · have h3 : 128 ^ (id'.length - 1) ≤ 128 ^ 5 := Nat.pow_le_pow_right (by decide) (by omega)
        have : (128 : Nat) ^ 5 = 2 ^ 35 := by decide
        omega
      · exact h2

set_option maxRecDepth 100000 in
/-- C102 is false for documents with more than 50 levels. -/
theorem C102_depth_counterexample (D : Deps) :
    DerDoc (fun _ _ _ => True) 51 (Tests.nest 50) ∧ parseDer D (Tests.nest 50) = .err (.error .berMaxDepth) :=
  ⟨nest_derDoc _ 50 (by decide), by rfl⟩

/-- C102 as stated is false. -/
theorem C102_full_counterexample : ¬ C102Statement := fun h => by
  obtain ⟨h1, h2⟩ := C102_enumerated_counterexample Tests.D0
  obtain ⟨o, h3⟩ := h Tests.D0 1 _ h1 (by decide)
  rw [h2] at h3
  simp at h3

/-- Fifty levels are within the limits. -/
example (D : Deps) : DerDoc (Supported D) 50 (Tests.nest 49) := nest_derDoc _ 49 (by decide)

end Verif
