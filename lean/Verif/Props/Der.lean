import Verif.Props.Contents
import Verif.Lemmas.Multi
/-!
# DER restrictions: C28 to C36, C63
-/
namespace Verif
open Outcome Spec

/-! ## C63: exactness of parse_der -/

/-- C63: `parse_der` (at any positive depth limit) succeeds with remainder `rem` and object `o`
exactly when the input is a definite element of at most `MAX_OBJECT_SIZE` contents octets followed
by `rem` and either the class is not universal and the content is kept raw, or the contents octets
satisfy the DER rules of the outermost tag and denote the content of `o` (by the BER rules inside;
`Header.new` because the object is rebuilt without raw tag). -/
theorem C63_parse_der_exact (D : Deps) (hT : TimesKnown D) (d : Nat) (i rem : Bytes)
    (o : BerObject) :
    parseDerRecursive D (d + 1) i = .ok (rem, o) ↔
      ∃ hb c, i = hb ++ c ++ rem ∧ DerHeader hb o.header ∧ o.header.length = .definite c.length ∧
        c.length ≤ 4294967295 ∧
        ((o.header.cls ≠ .universal ∧ o.content = .unknown ⟨o.header, c⟩) ∨
          (o.header.cls = .universal ∧ DerRules o.header.tag c ∧
            Denotes D (d + 1)
              (Header.new .universal o.header.constructed o.header.tag o.header.length) c
              o.content)) :=
  parseDerRecursive_iff hT

example := (C63_parse_der_exact Tests.D0 (fun _ _ _ => by simp [Tests.D0]) 49 [0x30, 0x03, 0x02, 0x01, 0x05, 9] [9] _).1 rfl

/-- C63 for the typed functions `parse_der_xxx`; the size limit is not applied to BIT STRING. -/
theorem C63_parse_der_with_tag_exact (D : Deps) (tag : Nat) (i rem : Bytes) (o : BerObject) :
    parseDerWithTag D tag i = .ok (rem, o) ↔
      ∃ hb c, i = hb ++ c ++ rem ∧ DerHeader hb o.header ∧ o.header.length = .definite c.length ∧
        o.header.tag = tag ∧ DerRules tag c ∧ (tag = 3 ∨ c.length ≤ 4294967295) ∧
        Denotes D 50 (Header.new .universal o.header.constructed o.header.tag o.header.length) c
          o.content :=
  parseDerWithTag_iff

example : parseDer Tests.D0 [0x30, 0x03, 0x02, 0x01, 0x05, 0xaa] =
    .ok ([0xaa], .mk ⟨.universal, true, 16, .definite 3, some [0x30]⟩ (.sequence
      [.mk ⟨.universal, false, 2, .definite 1, some [2]⟩ (.integer [5])])) := rfl

/-- `o` is returned by parse_der (any depth) or by parse_der_with_tag (any tag). -/
def ReturnedDer (D : Deps) (i rem : Bytes) (o : BerObject) : Prop :=
  (∃ d, parseDerRecursive D d i = .ok (rem, o)) ∨ (∃ tag, parseDerWithTag D tag i = .ok (rem, o))

theorem returnedDer_ok {D : Deps} {i rem : Bytes} {o : BerObject} (h : ReturnedDer D i rem o) :
    ∃ hb c, i = hb ++ c ++ rem ∧ DerHeader hb o.header ∧ o.header.length = .definite c.length ∧
      (o.content = .unknown ⟨o.header, c⟩ ∨
        (DerRules o.header.tag c ∧ ∃ d, Denotes D d
          (Header.new .universal o.header.constructed o.header.tag o.header.length) c
            o.content)) := by
  rcases h with ⟨d, h⟩ | ⟨tag, h⟩
  · obtain ⟨hb, c, h1, h2, h3, _, h4⟩ := parseDerRecursive_sound h
    refine ⟨hb, c, h1, h2, h3, ?_⟩
    rcases h4 with h4 | ⟨_, h4, d', _, h5⟩
    · exact .inl h4
    · exact .inr ⟨h4, d', h5⟩
  · obtain ⟨hb, c, h1, h2, h3, h4, h5, _, h6⟩ := parseDerWithTag_iff.1 h
    exact ⟨hb, c, h1, h2, h3, .inr ⟨by rw [h4]; exact h5, 50, h6⟩⟩

theorem denotes_leaf {D : Deps} {d : Nat} {h : Header} {c : Bytes} {x : Content}
    (hD : Denotes D d h c x) (hs : ∀ l, x ≠ .sequence l) (ht : ∀ l, x ≠ .set l) : Leaf D h c x := by
  cases hD with
  | leaf _ _ _ _ hL => exact hL
  | sequence => exact absurd rfl (hs _)
  | set => exact absurd rfl (ht _)

/-! ## C28 -/

/-- C28: a BOOLEAN returned by `parse_der` or `parse_der_bool` has contents `00` (false) or `ff`
(true), and nothing else. -/
theorem C28_der_bool (D : Deps) (i rem : Bytes) (o : BerObject) (b : Bool)
    (h : ReturnedDer D i rem o) (hb : o.content = .boolean b) :
    ∃ hd, i = hd ++ [if b then 0xff else 0x00] ++ rem ∧ DerHeader hd o.header ∧
      o.header.tag = 1 ∧ o.header.length = .definite 1 := by
  obtain ⟨hd, c, h1, h2, h3, h4 | ⟨hR, d, hD⟩⟩ := returnedDer_ok h
  · rw [hb] at h4; simp at h4
  · rw [hb] at hD
    obtain ⟨_, l2, l3, v, rfl, l5⟩ := denotes_leaf hD (by simp) (by simp)
    refine ⟨hd, ?_, h2, l2, l3⟩
    rw [h1]
    rcases hR.bool l2 with hh | hh
    · simp only [List.cons.injEq, and_true] at hh
      subst hh
      simp at l5
      simp [l5]
    · simp only [List.cons.injEq, and_true] at hh
      subst hh
      simp at l5
      simp [l5]

/-- C28: every other content octet is refused by `parse_der`, with `InvalidBoolean`. -/
theorem C28_der_bool_refused (D : Deps) (d : Nat) (hd rest : Bytes) (h : Header) (v : UInt8)
    (H : DerHeader hd h) (hcls : h.cls = .universal) (ht : h.tag = 1) (hl : h.length = .definite 1)
    (h0 : v ≠ 0x00) (h1 : v ≠ 0xff) :
    parseDerRecursive D d (hd ++ [v] ++ rest) =
      .err (.error (.derConstraintFailed .invalidBoolean)) := by
  unfold parseDerRecursive
  rw [List.append_assoc, derHeader_reads H]
  simp only [ok_bind, hl]
  rw [if_neg (by decide)]
  unfold derReadElementContentRecursive
  rw [if_neg (by simp [hcls])]
  have : derReadElementContentAs D ([v] ++ rest) h.tag h.length h.constructed d =
      .err (.error (.derConstraintFailed .invalidBoolean)) := by
    rw [hl, derReadElementContentAs_definite _ _ _ _ _ _ _ (show [v].length = 1 from rfl),
      if_neg (by rw [ht]; decide)]
    simp [derCheck, ht, uKind, h0, h1, liftRes]
  rw [this]

example : ReturnedDer Tests.D0 [0x01, 0x01, 0xff] []
    (.mk ⟨.universal, false, 1, .definite 1, some [1]⟩ (.boolean true)) := .inl ⟨50, rfl⟩
example : parseDer Tests.D0 [0x01, 0x01, 0x7f] =
    .err (.error (.derConstraintFailed .invalidBoolean)) := rfl

/-! ## C29 -/

/-- C29 in full: integers returned by `parse_der` and `parse_der_integer` are not empty and
their first nine bits are neither all zero nor all one (X.690 8.3.2). -/
def C29Statement : Prop :=
  ∀ (D : Deps) (i rem : Bytes) (o : BerObject) (s : Bytes), ReturnedDer D i rem o →
    o.content = .integer s → s ≠ [] ∧ (bitsOf s).take 9 ≠ List.replicate 9 false ∧
      (bitsOf s).take 9 ≠ List.replicate 9 true

/-- C29 is false: `02 02 ff ff` is accepted by `parse_der`; its first nine bits are ones. -/
theorem C29_leading_ones_counterexample : ¬ C29Statement := by
  intro h
  have := h Tests.D0 [0x02, 0x02, 0xff, 0xff] [] _ [0xff, 0xff] (.inl ⟨50, rfl⟩) rfl
  exact this.2.2 (by decide)

/-- C29, what holds: not empty and no nine leading zeroes.  Missing: nine leading ones. -/
theorem C29_der_integer_partial (D : Deps) (i rem : Bytes) (o : BerObject) (s : Bytes)
    (h : ReturnedDer D i rem o) (hs : o.content = .integer s) :
    s ≠ [] ∧ (bitsOf s).take 9 ≠ List.replicate 9 false ∧
      ∃ hd, i = hd ++ s ++ rem ∧ DerHeader hd o.header ∧ o.header.tag = 2 := by
  obtain ⟨hd, c, h1, h2, h3, h4 | ⟨hR, d, hD⟩⟩ := returnedDer_ok h
  · rw [hs] at h4; simp at h4
  · rw [hs] at hD
    obtain ⟨_, l2, rfl⟩ := denotes_leaf hD (by simp) (by simp)
    exact ⟨(hR.int l2).1, (hR.int l2).2, hd, h1, h2, l2⟩

example := C29_der_integer_partial Tests.D0 [0x02, 0x02, 0x00, 0x80, 9] [9] _ _ (.inl ⟨50, rfl⟩) rfl

/-- C29: and this is all that is asked for: contents that are not empty and do not begin with nine zeroes are
accepted. -/
theorem C29_accepted (D : Deps) (hd rest : Bytes) (h : Header) (s : Bytes) (H : DerHeader hd h)
    (hcls : h.cls = .universal) (ht : h.tag = 2) (hl : h.length = .definite s.length)
    (hmax : s.length ≤ 4294967295) (hne : s ≠ []) (hz : (bitsOf s).take 9 ≠ List.replicate 9 false)
    (hT : TimesKnown D) : parseDer D (hd ++ s ++ rest) = .ok (rest, .mk h (.integer s)) := by
  refine (parseDerRecursive_iff (d := 49) hT).2 ⟨hd, s, rfl, H, hl, hmax, .inr ⟨hcls, ?_, ?_⟩⟩
  · rw [BerObject.header_mk, ht]
    exact ⟨by simp, fun _ => ⟨hne, hz⟩, by simp, by simp⟩
  · exact .leaf _ _ _ _ ⟨rfl, ht, rfl⟩

example := C29_accepted Tests.D0 [0x02, 0x02] [9] _ [0x00, 0x80] (derHeader_read rfl) rfl rfl rfl (by decide) (by simp)
  (by decide) (fun _ _ _ => by simp [Tests.D0])

theorem nine_one_bits (a b : UInt8) (rest : Bytes)
    (h : (bitsOf (a :: b :: rest)).take 9 = List.replicate 9 true) : a = 0xff ∧ 128 ≤ b.toNat := by
  have h7 : b.toNat.testBit 7 = decide (128 ≤ b.toNat) := (bits_table' _ b.toNat_lt).1
  have e : (bitsOf (a :: b :: rest)).take 9 = bitsOfByte a ++ [decide (128 ≤ b.toNat)] := by
    have : bitsOf (a :: b :: rest) = bitsOfByte a ++ (bitsOfByte b ++ bitsOf rest) := rfl
    rw [this, List.take_append, bitsOfByte_length, List.take_of_length_le (by
      rw [bitsOfByte_length]; omega), ← h7]
    simp [bitsOfByte]
  rw [e, show List.replicate 9 true = List.replicate 8 true ++ [true] from rfl] at h
  obtain ⟨h1, h2⟩ := List.append_inj h (by rw [bitsOfByte_length]; rfl)
  refine ⟨?_, by simpa using h2⟩
  have h3 := ofBits_bitsOfByte a
  rw [h1] at h3
  exact UInt8.toNat_inj.1 (by rw [← h3]; decide)

theorem derIntConstraints_min {c : Bytes} (h : derIntConstraints c = .ok ()) :
    c ≠ [] ∧ (bitsOf c).take 9 ≠ List.replicate 9 false ∧
      (bitsOf c).take 9 ≠ List.replicate 9 true := by
  match c with
  | [] => simp [derIntConstraints] at h
  | [a] =>
    have hlen : ((bitsOf [a]).take 9).length = 8 := by rw [List.length_take, bitsOf_length]; rfl
    refine ⟨by simp, fun he => ?_, fun he => ?_⟩ <;>
    · rw [he] at hlen; simp at hlen
  | a :: b :: rest =>
    simp only [derIntConstraints] at h
    split at h
    · simp at h
    · rename_i hz
      split at h
      · simp at h
      · rename_i ho
        refine ⟨by simp, fun he => ?_, fun he => ho (nine_one_bits a b rest he)⟩
        obtain ⟨b', rest', h1, h2⟩ := (nine_zero_bits _).1 he
        simp only [List.cons.injEq] at h1
        obtain ⟨rfl, rfl, _⟩ := h1
        exact hz ⟨rfl, h2⟩

/-- C29: the native integer parsers `parse_der_u32/u64/i32/i64` do check both rules. -/
theorem C29_der_native (n : Nat) (i rem : Bytes) (v : Int)
    (h : parseDerInt n i = .ok (rem, v) ∨ ∃ u : Nat, parseDerUint n i = .ok (rem, u)) :
    ∃ hd c hdr, i = hd ++ c ++ rem ∧ DerHeader hd hdr ∧ hdr.tag = 2 ∧ hdr.constructed = false ∧
      hdr.length = .definite c.length ∧ c ≠ [] ∧
      (bitsOf c).take 9 ≠ List.replicate 9 false ∧ (bitsOf c).take 9 ≠ List.replicate 9 true := by
  have key : ∀ a r, anyFromDer i = .ok (r, a) → a.header.assertPrimitive = .ok () →
      derIntConstraints a.data = .ok () → a.header.assertTag Tag.integer = .ok () →
      ∃ hd c hdr, i = hd ++ c ++ r ∧ DerHeader hd hdr ∧ hdr.tag = 2 ∧ hdr.constructed = false ∧
      hdr.length = .definite c.length ∧ c ≠ [] ∧
      (bitsOf c).take 9 ≠ List.replicate 9 false ∧
      (bitsOf c).take 9 ≠ List.replicate 9 true := by
    intro a r h1 h2 h3 h4
    unfold anyFromDer at h1
    obtain ⟨⟨i1, hdr⟩, g1, g2⟩ := bind_eq_ok.1 h1
    obtain ⟨hd, rfl, H⟩ := headerFromDer_iff.1 g1
    obtain ⟨l, g3, g4⟩ := bind_eq_ok.1 g2
    obtain ⟨⟨i2, c⟩, g5, g6⟩ := bind_eq_ok.1 g4
    simp only [ok.injEq, Prod.mk.injEq] at g6
    obtain ⟨rfl, rfl⟩ := g6
    obtain ⟨rfl, hlen⟩ := takeStreaming_ok g5
    have hl : hdr.length = .definite c.length := by
      rw [liftRes_eq_ok] at g3
      simp only at g3
      cases hL : hdr.length with
      | indefinite => simp [hL, Length.definite?] at g3
      | definite L => simp [hL, Length.definite?] at g3; rw [g3, hlen]
    obtain ⟨k1, k2, k3⟩ := derIntConstraints_min h3
    refine ⟨hd, c, hdr, by simp, H, ?_, ?_, hl, k1, k2, k3⟩
    · unfold Header.assertTag at h4
      split at h4
      · assumption
      · simp at h4
    · unfold Header.assertPrimitive at h2
      split at h2
      · simp at h2
      · rename_i hh; simpa using hh
  rcases h with h | ⟨u, h⟩
  · unfold parseDerInt at h
    obtain ⟨⟨r, a⟩, h1, h⟩ := bind_eq_ok.1 h
    obtain ⟨_, h2, h⟩ := bind_eq_ok.1 h
    obtain ⟨_, h3, h⟩ := bind_eq_ok.1 h
    obtain ⟨w, h4, h⟩ := bind_eq_ok.1 h
    simp only [ok.injEq, Prod.mk.injEq] at h
    obtain ⟨rfl, rfl⟩ := h
    rw [liftRes_eq_ok] at h2 h3 h4
    unfold intFromAny at h4
    obtain ⟨_, h5, _⟩ := bind_eq_ok.1 h4
    exact key a _ h1 h2 h3 h5
  · unfold parseDerUint at h
    obtain ⟨⟨r, a⟩, h1, h⟩ := bind_eq_ok.1 h
    obtain ⟨_, h2, h⟩ := bind_eq_ok.1 h
    obtain ⟨_, h3, h⟩ := bind_eq_ok.1 h
    obtain ⟨w, h4, h⟩ := bind_eq_ok.1 h
    simp only [ok.injEq, Prod.mk.injEq] at h
    obtain ⟨rfl, rfl⟩ := h
    rw [liftRes_eq_ok] at h2 h3 h4
    unfold uintFromAny at h4
    obtain ⟨_, h5, _⟩ := bind_eq_ok.1 h4
    exact key a _ h1 h2 h3 h5

example : ReturnedDer Tests.D0 [0x02, 0x02, 0x00, 0x80] []
    (.mk ⟨.universal, false, 2, .definite 2, some [2]⟩ (.integer [0x00, 0x80])) := .inl ⟨50, rfl⟩
example : parseDerInt 8 [0x02, 0x02, 0x00, 0x80] = .ok ([], 128) := by decide +kernel

/-! ## C30 -/

/-- C30 in full. -/
def C30Statement : Prop :=
  ∀ (D : Deps) (i rem : Bytes) (o : BerObject) (u : UInt8) (s : Bytes), ReturnedDer D i rem o →
    o.content = .bitString u s → u.toNat ≤ 7 ∧
      (∀ b ∈ (bitsOf s).drop (8 * s.length - u.toNat), b = false) ∧ (s = [] → u = 0)

/-- C30 is false: `03 01 05`, five unused bits of no data octet, is accepted. -/
theorem C30_no_data_counterexample : ¬ C30Statement := by
  intro h
  have := h Tests.D0 [0x03, 0x01, 0x05] [] _ 5 [] (.inl ⟨50, rfl⟩) rfl
  exact absurd (this.2.2 rfl) (by decide)

/-- C30, what holds: at most seven unused bits, and these are zero.  Missing: no unused bits when
there is no data octet. -/
theorem C30_der_bitstring_partial (D : Deps) (i rem : Bytes) (o : BerObject) (u : UInt8) (s : Bytes)
    (h : ReturnedDer D i rem o) (hs : o.content = .bitString u s) :
    u.toNat ≤ 7 ∧ (∀ b ∈ (bitsOf s).drop (8 * s.length - u.toNat), b = false) ∧
      ∃ hd, i = hd ++ (u :: s) ++ rem ∧ DerHeader hd o.header ∧ o.header.tag = 3 := by
  obtain ⟨hd, c, h1, h2, h3, h4 | ⟨hR, d, hD⟩⟩ := returnedDer_ok h
  · rw [hs] at h4; simp at h4
  · rw [hs] at hD
    obtain ⟨_, l2, _, rfl⟩ := denotes_leaf hD (by simp) (by simp)
    obtain ⟨g1, g2⟩ := hR.bits l2 u s rfl
    exact ⟨g1, g2, hd, h1, h2, l2⟩

example := C30_der_bitstring_partial Tests.D0 [0x03, 0x02, 0x03, 0xf8, 9] [9] _ _ _ (.inl ⟨50, rfl⟩) rfl

/-- C30: and every bit string meeting these two conditions is accepted. -/
theorem C30_accepted (D : Deps) (hd rest : Bytes) (h : Header) (u : UInt8) (s : Bytes)
    (H : DerHeader hd h) (hcls : h.cls = .universal) (ht : h.tag = 3) (hp : h.constructed = false)
    (hl : h.length = .definite (s.length + 1)) (hmax : s.length + 1 ≤ 4294967295)
    (hu : u.toNat ≤ 7) (hz : ∀ b ∈ (bitsOf s).drop (8 * s.length - u.toNat), b = false)
    (hT : TimesKnown D) :
    parseDer D (hd ++ (u :: s) ++ rest) = .ok (rest, .mk h (.bitString u s)) := by
  refine (parseDerRecursive_iff (d := 49) hT).2 ⟨hd, u :: s, rfl, H, hl, hmax, .inr ⟨hcls, ?_, ?_⟩⟩
  · rw [BerObject.header_mk, ht]
    refine ⟨by simp, by simp, fun _ u' s' hh => ?_, by simp⟩
    simp only [List.cons.injEq] at hh
    obtain ⟨rfl, rfl⟩ := hh
    exact ⟨hu, hz⟩
  · exact (denotes_bitString (h := Header.new .universal h.constructed h.tag h.length) rfl ht).2
      ⟨hp, u, s, rfl, rfl⟩

example : ReturnedDer Tests.D0 [0x03, 0x02, 0x03, 0xf8] []
    (.mk ⟨.universal, false, 3, .definite 2, some [3]⟩ (.bitString 3 [0xf8])) := .inl ⟨50, rfl⟩
example : parseDer Tests.D0 [0x03, 0x02, 0x04, 0xf8] =
    .err (.error (.derConstraintFailed .unusedBitsNotZero)) := rfl

/-! ## C31 -/

/-- C31: a time returned by the DER functions comes from contents octets ending with `Z`. -/
theorem C31_der_times (D : Deps) (i rem : Bytes) (o : BerObject) (t : DateTime)
    (h : ReturnedDer D i rem o) (hs : o.content = .utcTime t ∨ o.content = .generalizedTime t) :
    ∃ hd c, i = hd ++ (c ++ [0x5a]) ++ rem ∧ DerHeader hd o.header ∧
      o.header.length = .definite (c.length + 1) ∧ (o.header.tag = 23 ∨ o.header.tag = 24) := by
  obtain ⟨hd, c, h1, h2, h3, h4 | ⟨hR, d, hD⟩⟩ := returnedDer_ok h
  · rcases hs with hs | hs <;> · rw [hs] at h4; simp at h4
  · have ht : o.header.tag = 23 ∨ o.header.tag = 24 := by
      rcases hs with hs | hs
      · rw [hs] at hD
        exact .inl (denotes_leaf hD (by simp) (by simp)).2.1
      · rw [hs] at hD
        exact .inr (denotes_leaf hD (by simp) (by simp)).2.1
    have hz := hR.time ht
    rcases List.eq_nil_or_concat c with rfl | ⟨c', b, rfl⟩
    · simp at hz
    · simp only [List.concat_eq_append, List.getLast?_append, List.getLast?_singleton,
        Option.some_or, Option.some.injEq] at hz
      subst hz
      refine ⟨hd, c', by rw [h1, List.concat_eq_append], h2, ?_, ht⟩
      rw [h3]; simp

example := C31_der_times { Tests.D0 with utcTime := fun _ _ => .ok ⟨[]⟩ } [0x17, 0x02, 0x30, 0x5a, 9] [9] _ _
  (.inl ⟨50, rfl⟩) (.inl rfl)

/-- C31: a universal UTCTime or GeneralizedTime whose contents octets do not end with `Z`, in
particular with empty contents, is refused by `parse_der` with `MissingTimeZone`. -/
theorem C31_der_times_refused (D : Deps) (d : Nat) (hd c rest : Bytes) (h : Header)
    (H : DerHeader hd h) (hcls : h.cls = .universal) (ht : h.tag = 23 ∨ h.tag = 24)
    (hl : h.length = .definite c.length) (hmax : c.length ≤ 4294967295)
    (hz : c.getLast? ≠ some 0x5a) :
    parseDerRecursive D d (hd ++ c ++ rest) =
      .err (.error (.derConstraintFailed .missingTimeZone)) := by
  unfold parseDerRecursive
  rw [List.append_assoc, derHeader_reads H]
  simp only [ok_bind, hl]
  rw [if_neg (by unfold maxObjectSize; omega)]
  unfold derReadElementContentRecursive
  rw [if_neg (by simp [hcls])]
  have hcond : c.length = 0 ∨ c[c.length - 1]? ≠ some 0x5a := by
    rw [List.getLast?_eq_getElem?] at hz; exact .inr hz
  have : derReadElementContentAs D (c ++ rest) h.tag h.length h.constructed d =
      .err (.error (.derConstraintFailed .missingTimeZone)) := by
    rw [hl, derReadElementContentAs_definite _ _ _ _ _ _ _ rfl,
      if_neg (by rcases ht with ht | ht <;> (rw [ht]; decide))]
    have hk : derCheck c h.tag c.length h.constructed =
        .err (.derConstraintFailed .missingTimeZone) := by
      rcases ht with ht | ht <;> simp only [derCheck, ht, uKind, if_pos hcond]
    rw [hk]
    rfl
  rw [this]

/-- A choice of time parsers that accept everything, for the example below. -/
def Tests.D1 : Deps := { Tests.D0 with utcTime := fun _ _ => .ok ⟨[]⟩ }

example : ∃ o, parseDer Tests.D1 [0x17, 0x02, 0x30, 0x5a] = .ok ([], o) ∧ ∃ t, o.content = .utcTime t :=
  ⟨_, rfl, _, rfl⟩
example : parseDer Tests.D1 [0x17, 0x00] = .err (.error (.derConstraintFailed .missingTimeZone)) :=
  rfl
example : (parseBer Tests.D1 [0x17, 0x00]).isOk = true := rfl

/-! ## C32 -/

/-- C32: in every object returned by the DER functions, at every nesting level, a BIT STRING or
character string comes from a primitive encoding. -/
theorem C32_der_primitive (D : Deps) (i rem : Bytes) (o o' : BerObject)
    (h : ReturnedDer D i rem o) (hn : Node o' o)
    (hs : (∃ u s, o'.content = .bitString u s) ∨ (∃ k s, o'.content = .str k s) ∨
      (∃ s, o'.content = .bmpString s) ∨ (∃ s, o'.content = .universalString s)) :
    o'.header.constructed = false := by
  have hr : Returned D i rem o := by
    rcases h with h | h
    · exact .inr (.inl h)
    · exact .inr (.inr (.inr h))
  obtain ⟨_, _, _, c, _, _, h3 | ⟨hd, d, e1, e2, e3, hD⟩⟩ := returned_node hr hn
  · rcases hs with ⟨_, _, hs⟩ | ⟨_, _, hs⟩ | ⟨_, hs⟩ | ⟨_, hs⟩ <;> (rw [hs] at h3; simp at h3)
  · rw [← e1]
    rcases hs with ⟨_, _, hs⟩ | ⟨_, _, hs⟩ | ⟨_, hs⟩ | ⟨_, hs⟩ <;> rw [hs] at hD <;>
      exact (denotes_leaf hD (by simp) (by simp)).2.2.1

example := C32_der_primitive Tests.D0 [0x30, 0x03, 0x13, 0x01, 0x41] [] _
  (.mk ⟨.universal, false, 19, .definite 1, some [0x13]⟩ (.str .printable [0x41])) (.inl ⟨50, rfl⟩)
  (.seq _ _ _ (List.mem_singleton.2 rfl) .self) (.inr (.inl ⟨_, _, rfl⟩))

/-- C32: the constructed form is refused with the DER constraint error. -/
theorem C32_constructed_refused (D : Deps) (d : Nat) (hd c rest : Bytes) (h : Header)
    (H : DerHeader hd h) (hcls : h.cls = .universal) (hc : h.constructed = true)
    (ht : h.tag = 3 ∨ h.tag = 28 ∨ h.tag = 30 ∨ ∃ k, h.tag = strTag k)
    (hl : h.length = .definite c.length) (hmax : c.length ≤ 4294967295) :
    parseDerRecursive D d (hd ++ c ++ rest) =
      .err (.error (.derConstraintFailed .constructed)) := by
  unfold parseDerRecursive
  rw [List.append_assoc, derHeader_reads H]
  simp only [ok_bind, hl]
  rw [if_neg (by unfold maxObjectSize; omega)]
  unfold derReadElementContentRecursive
  rw [if_neg (by simp [hcls])]
  have : derReadElementContentAs D (c ++ rest) h.tag h.length h.constructed d =
      .err (.error (.derConstraintFailed .constructed)) := by
    rw [hl, derReadElementContentAs_definite _ _ _ _ _ _ _ rfl, hc]
    rcases ht with ht | ht | ht | ⟨k, ht⟩
    · rw [ht]; rfl
    · rw [ht]; rfl
    · rw [ht]; rfl
    · rw [ht]; cases k <;> rfl
  rw [this]

example : parseDer Tests.D0 [0x33, 0x01, 0x41] =
    .err (.error (.derConstraintFailed .constructed)) := rfl
example : ReturnedDer Tests.D0 [0x30, 0x03, 0x13, 0x01, 0x41] [] (.mk
    ⟨.universal, true, 16, .definite 3, some [0x30]⟩ (.sequence
      [.mk ⟨.universal, false, 19, .definite 1, some [0x13]⟩ (.str .printable [0x41])])) :=
  .inl ⟨50, rfl⟩

/-! ## C33 -/

/-- The DER header parser on an indefinite-length header. -/
theorem headerFromDer_indefinite {hb x : Bytes} {h : Header} (H : BerHeader hb h)
    (hl : h.length = .indefinite) :
    headerFromDer (hb ++ x) = .err (.error (.derConstraintFailed .indefiniteLength)) := by
  have hr := berHeader_reads H x
  unfold headerFromBer at hr
  unfold headerFromDer
  obtain ⟨⟨i1, id⟩, h1, h2⟩ := bind_eq_ok.1 hr
  obtain ⟨⟨i2, L⟩, h3, h4⟩ := bind_eq_ok.1 h2
  simp only [ok.injEq, Prod.mk.injEq] at h4
  obtain ⟨rfl, rfl⟩ := h4
  simp only at hl
  subst hl
  rw [h1]
  simp only [ok_bind]
  unfold parseLength at h3 ⊢
  cases i1 with
  | nil => simp at h3
  | cons b rest =>
    dsimp only at h3 ⊢
    split at h3
    · simp at h3
    · rename_i hnot
      rw [if_neg hnot]
      split at h3
      · rename_i h80
        rw [if_pos h80]
        rfl
      · split at h3
        · simp at h3
        · obtain ⟨r, _, h5⟩ := bind_eq_ok.1 h3
          split at h5 <;> simp at h5

/-- C33: `parse_der` and `parse_der_with_tag` answer an indefinite length with the DER constraint
error. -/
theorem C33_indefinite_refused (D : Deps) (d tag : Nat) (hb x : Bytes) (h : Header)
    (H : BerHeader hb h) (hl : h.length = .indefinite) :
    parseDerRecursive D d (hb ++ x) = .err (.error (.derConstraintFailed .indefiniteLength)) ∧
    parseDerWithTag D tag (hb ++ x) = .err (.error (.derConstraintFailed .indefiniteLength)) := by
  constructor
  · unfold parseDerRecursive; rw [headerFromDer_indefinite H hl]; rfl
  · unfold parseDerWithTag; rw [headerFromDer_indefinite H hl]; rfl

example := C33_indefinite_refused Tests.D0 50 16 [0x30, 0x80] [0x05, 0x00, 0, 0] _ (berHeader_read rfl) rfl

/-- C33: the same for the container combinators of the DER files, whatever the closure. -/
theorem C33_indefinite_refused_combinators {E O T : Type} [ParseErr E] (tag : Nat)
    (f : Bytes → Header → IRes E O) (g : Bytes → IRes E T) (k : Bytes → Header → Nat → IRes E O)
    (hb x : Bytes) (h : Header) (H : BerHeader hb h) (hl : h.length = .indefinite) :
    let e : NomErr E := .error (ParseErr.ofBer (.derConstraintFailed .indefiniteLength))
    container .der f (hb ++ x) = .err e ∧ definedG .der tag f (hb ++ x) = .err e ∧
    ofV .der tag g (hb ++ x) = .err e ∧ taggedExplicitG .der tag f (hb ++ x) = .err e ∧
    taggedImplicitG .der tag k (hb ++ x) = .err e := by
  have hf : (frame .der (hb ++ x) : IRes E (Header × Bytes)) =
      .err (.error (ParseErr.ofBer (.derConstraintFailed .indefiniteLength))) := by
    unfold frame
    dsimp only
    rw [headerFromDer_indefinite H hl]
    rfl
  have hc : ∀ {α : Type} (f : Bytes → Header → IRes E α), container .der f (hb ++ x) =
      .err (.error (ParseErr.ofBer (.derConstraintFailed .indefiniteLength))) := by
    intro α f
    unfold container
    rw [hf]
    rfl
  refine ⟨hc _, ?_, ?_, ?_, ?_⟩ <;>
    simp only [definedG, ofV, taggedExplicitG, taggedImplicitG, hc]

example (f : Bytes → Header → IRes BerError Nat) (g : Bytes → IRes BerError Nat) (k : Bytes → Header → Nat → IRes BerError Nat) :=
  C33_indefinite_refused_combinators 16 f g k [0x30, 0x80] [0x05, 0x00, 0, 0] _ (berHeader_read rfl) rfl

/-- C33: and for the versions returning objects. -/
theorem C33_indefinite_refused_objects (tag : Nat) (f : Bytes → IRes BerError BerObject)
    (g : Bytes → IRes BerError (List BerObject))
    (k : Bytes → Header → Nat → IRes BerError Content)
    (hb x : Bytes) (h : Header) (H : BerHeader hb h) (hl : h.length = .indefinite) :
    let e : NomErr BerError := .error (.derConstraintFailed .indefiniteLength)
    sequenceOf .der f (hb ++ x) = .err e ∧ setOf .der f (hb ++ x) = .err e ∧
    sequenceDefined .der g (hb ++ x) = .err e ∧ setDefined .der g (hb ++ x) = .err e ∧
    taggedExplicit .der tag f (hb ++ x) = .err e ∧ taggedImplicit .der tag k (hb ++ x) = .err e ∧
    parseSlice .der tag (hb ++ x) = .err e := by
  have hc : ∀ {α : Type} (f : Bytes → Header → IRes BerError α), container .der f (hb ++ x) =
      .err (.error (.derConstraintFailed .indefiniteLength)) := by
    intro α f
    exact (C33_indefinite_refused_combinators (E := BerError) (T := Unit) 0 f
      (fun _ => .panic) (fun _ _ _ => .panic) hb x h H hl).1
  have hm : ∀ {α β : Type} (m : α → β) (f : Bytes → Header → IRes BerError α),
      mapRes m (container .der f) (hb ++ x) =
        .err (.error (.derConstraintFailed .indefiniteLength)) := by
    intro α β m f
    unfold mapRes
    rw [hc]
    rfl
  refine ⟨?_, ?_, ?_, ?_, ?_, ?_, ?_⟩ <;>
    simp only [sequenceOf, setOf, sequenceDefined, setDefined, taggedExplicit, taggedImplicit,
      parseSlice, definedG, ofV, taggedExplicitG, taggedImplicitG, hc, hm]

example (f : Bytes → IRes BerError BerObject) (g : Bytes → IRes BerError (List BerObject))
    (k : Bytes → Header → Nat → IRes BerError Content) :=
  C33_indefinite_refused_objects 16 f g k [0x30, 0x80] [0x05, 0x00, 0, 0] _ (berHeader_read rfl) rfl

/-- C33: two functions of the DER module use BER framing and do accept indefinite lengths:
`parse_der_explicit_optional` and `parse_der_implicit`. -/
theorem C33_optional_implicit_counterexample :
    (∃ r, parseExplicitOptional 0 (parseDer Tests.D0)
      [0xa0, 0x80, 0x02, 0x01, 0x05, 0x00, 0x00] = .ok r ∧
        ∃ h x, r.2 = .mk h (.optionalSome x) ∧ h.length = .indefinite) ∧
    (∃ r, parseImplicit 0 (fun i h d => parseBerContent Tests.D0 4 i { h with length := .definite 3 } d)
      [0xa0, 0x80, 0x02, 0x01, 0x05, 0x00, 0x00] = .ok r ∧ r.2.header.length = .indefinite) :=
  ⟨⟨_, rfl, _, _, rfl, rfl⟩, ⟨_, rfl, rfl⟩⟩

example : BerHeader [0x30, 0x80] ⟨.universal, true, 16, .indefinite, some [0x30]⟩ :=
  ⟨⟨[0x30], [0x80], 16, rfl, .low 0x30 (by decide), .indefinite, by decide, by decide, rfl⟩,
    by simp, fun _ => rfl⟩

/-! ## C34 -/

/-- The element at `hb ++ c` is read by the DER rules as node `o`. -/
def Spec.DerNode (D : Deps) (hb c : Bytes) (o : BerObject) : Prop :=
  DerHeader hb o.header ∧ o.header.length = .definite c.length ∧
  (o.content = .unknown ⟨o.header, c⟩ ∨
    (DerRules o.header.tag c ∧ ∃ d, Denotes D d
      (Header.new .universal o.header.constructed o.header.tag o.header.length) c o.content))

/-- C34 in full: every node of an object returned by `parse_der` comes from an element of the input
that satisfies the DER rules. -/
def C34Statement : Prop :=
  ∀ (D : Deps) (i rem : Bytes) (o o' : BerObject), parseDer D i = .ok (rem, o) → Node o' o →
    ∃ pre hb c post, i = pre ++ hb ++ c ++ post ++ rem ∧ DerNode D hb c o'

/-- C34 is false, rule by rule: nested indefinite length, BOOLEAN `7f`, INTEGER `00 01`, BIT STRING
with eight unused bits and with nonzero unused bits are all accepted inside a SEQUENCE. -/
theorem C34_nested_counterexample : ¬ C34Statement ∧
    (∃ o, parseDer Tests.D0 [0x30, 0x04, 0x30, 0x80, 0, 0] = .ok ([], o) ∧
      ∃ o', Node o' o ∧ o'.header.length = .indefinite) ∧
    (parseDer Tests.D0 [0x30, 0x03, 0x01, 0x01, 0x7f]).isOk = true ∧
    (∃ o, parseDer Tests.D0 [0x30, 0x04, 0x02, 0x02, 0x00, 0x01] = .ok ([], o) ∧
      ∃ o', Node o' o ∧ ∃ s, o'.content = .integer s ∧
        (bitsOf s).take 9 = List.replicate 9 false) ∧
    (∃ o, parseDer Tests.D0 [0x30, 0x04, 0x03, 0x02, 0x01, 0xff] = .ok ([], o) ∧
      ∃ o', Node o' o ∧ ∃ u s, o'.content = .bitString u s ∧
        ∃ b ∈ (bitsOf s).drop (8 * s.length - u.toNat), b = true) := by
  refine ⟨?_, ?_, by decide +kernel, ?_, ?_⟩
  · intro h
    obtain ⟨_, _, _, _, _, hn⟩ := h Tests.D0 [0x30, 0x04, 0x30, 0x80, 0, 0] [] _ _ rfl
      (.seq _ _ _ (List.mem_singleton.2 rfl) .self)
    exact hn.1.definite rfl
  · exact ⟨_, rfl, _, .seq _ _ _ (List.mem_singleton.2 rfl) .self, rfl⟩
  · exact ⟨_, rfl, _, .seq _ _ _ (List.mem_singleton.2 rfl) .self, _, rfl, by decide⟩
  · exact ⟨_, rfl, _, .seq _ _ _ (List.mem_singleton.2 rfl) .self, _, _, rfl, true, by decide, rfl⟩

/-- C34, what holds: the outermost element satisfies the rules; every nested element is read by the
BER rules (`C62`).  Missing: the DER rules for nested elements. -/
theorem C34_outermost_partial (D : Deps) (i rem : Bytes) (o o' : BerObject)
    (h : ReturnedDer D i rem o) (hn : Node o' o) :
    (∃ hb c, i = hb ++ c ++ rem ∧ DerNode D hb c o) ∧
    (o' = o ∨ ∃ pre e post c d, i = pre ++ e ++ post ++ rem ∧
      Framed 50 e o'.header c ∧ Denotes D d o'.header c o'.content) := by
  obtain ⟨hd, c, h1, h2, h3, h4⟩ := returnedDer_ok h
  constructor
  · exact ⟨hd, c, h1, h2, h3, h4⟩
  · rcases h4 with h4 | ⟨_, d, hD⟩
    · left
      cases hn with
      | self => rfl
      | seq h l o1 _ _ => simp at h4
      | set h l o1 _ _ => simp at h4
    · rcases denotes_node hn hD with rfl | ⟨pre, e, post, c', d', rfl, hF, _, hD'⟩
      · exact .inl rfl
      · exact .inr ⟨hd ++ pre, e, post, c', d', by rw [h1]; simp, hF, hD'⟩

example : ∃ o, ReturnedDer Tests.D0 [0x30, 0x03, 0x01, 0x01, 0x7f] [] o ∧
    ∃ o', Node o' o ∧ o' ≠ o := by
  refine ⟨_, .inl ⟨50, rfl⟩, _, .seq _ _ _ (List.mem_singleton.2 rfl) .self, ?_⟩
  simp

/-! ## C35 -/

/-- C35 in full. -/
def C35Statement : Prop :=
  ∀ (D : Deps) (i i' : Bytes) (o : BerObject), parseDer D i = .ok ([], o) →
    parseDer D i' = .ok ([], o) → i = i'

/-- C35 is false: `02 81 01 05` and `02 01 05` give the same object (the length octets need not be
minimal); so do `0a 01 05` and, for nested elements, `30 03 01 01 01` and `30 03 01 01 02`. -/
theorem C35_length_octets_counterexample : ¬ C35Statement ∧
    parseDer Tests.D0 [0x02, 0x81, 0x01, 0x05] = parseDer Tests.D0 [0x02, 0x01, 0x05] ∧
    parseDer Tests.D0 [0x30, 0x03, 0x01, 0x01, 0x01] =
      parseDer Tests.D0 [0x30, 0x03, 0x01, 0x01, 0x02] ∧
    parseDer Tests.D0 [0x05, 0x01, 0x41] = parseDer Tests.D0 [0x05, 0x01, 0x42] := by
  refine ⟨?_, rfl, rfl, rfl⟩
  intro h
  have := h Tests.D0 [0x02, 0x81, 0x01, 0x05] [0x02, 0x01, 0x05] _ rfl rfl
  simp at this

/-- Contents for which the contents octets are determined by the value. -/
def Spec.Determined : Content → Prop
  | .boolean _ | .integer _ | .bitString _ _ | .octetString _ | .oid _ | .relativeOid _ | .str _ _
  | .bmpString _ | .universalString _ | .unknown _ => True
  | _ => False

/-- C35, what holds: for BOOLEAN, INTEGER, BIT STRING, OCTET STRING, OIDs, strings and raw
elements, two inputs accepted in full with the same object have the same identifier octets and the
same contents octets; they differ at most in the form of the length octets.  Missing: the length
octets, NULL/EOC/ENUMERATED contents, times (external) and nested elements. -/
theorem C35_same_contents_partial (D : Deps) (i i' : Bytes) (o : BerObject)
    (h : ReturnedDer D i [] o) (h' : ReturnedDer D i' [] o) (hd : Determined o.content) :
    ∃ id len len' c, i = id ++ len ++ c ∧ i' = id ++ len' ++ c ∧
      LenOctets len o.header.length ∧ LenOctets len' o.header.length := by
  have key : ∀ i, ReturnedDer D i [] o → ∃ hb c, i = hb ++ c ∧ BerHeader hb o.header ∧
      ((∀ b, o.content = .boolean b → c = [if b then 0xff else 0x00]) ∧
       (∀ s, Verbatim o.content = some s → c = s) ∧ (∀ k s, o.content = .str k s → c = s) ∧
       (∀ s, o.content = .bmpString s → c = s)) := by
    intro i h
    obtain ⟨hb, c, h1, h2, h3, h4⟩ := returnedDer_ok h
    refine ⟨hb, c, by simpa using h1, h2.toBerHeader, ?_⟩
    rcases h4 with h4 | ⟨hR, d, hD⟩
    · rw [h4]
      refine ⟨by simp, fun s hs => ?_, by simp, by simp⟩
      simpa [Verbatim] using hs
    · refine ⟨fun b hb' => ?_, fun s hs => ?_, fun k s hs => ?_, fun s hs => ?_⟩
      · obtain ⟨hd', e1, _, _, e2⟩ := C28_der_bool D i [] o b h hb'
        rw [h1] at e1
        simp only [List.append_nil] at e1
        have : c.length = 1 := by rw [e2] at h3; simpa using h3.symm
        exact (List.append_inj' e1 (by simp [this])).2
      · generalize o.content = x at hD hs
        cases hD with
        | leaf _ _ _ _ hL =>
          cases x <;> simp only [Verbatim, Option.some.injEq, reduceCtorEq] at hs <;>
            simp only [Leaf] at hL
          case integer => rw [← hs]; exact hL.2.2.symm
          case octetString => rw [← hs]; exact hL.2.2.symm
          case oid => rw [← hs]; exact hL.2.2.symm
          case relativeOid => rw [← hs]; exact hL.2.2.symm
          case universalString => rw [← hs]; exact hL.2.2.2.symm
          case bitString => rw [← hs]; exact hL.2.2.2
          case unknown => rw [← hs, hL.1]
        | sequence => simp [Verbatim] at hs
        | set => simp [Verbatim] at hs
      · rw [hs] at hD
        exact (denotes_leaf hD (by simp) (by simp)).2.2.2.1.symm
      · rw [hs] at hD
        exact (denotes_leaf hD (by simp) (by simp)).2.2.2.1.symm
  obtain ⟨hb, c, rfl, H, k1, k2, k3, k4⟩ := key i h
  obtain ⟨hb', c', rfl, H', k1', k2', k3', k4'⟩ := key i' h'
  have hc : c = c' := by
    cases hx : o.content with
    | boolean b => rw [k1 b hx, k1' b hx]
    | str k s => rw [k3 k s hx, k3' k s hx]
    | bmpString s => rw [k4 s hx, k4' s hx]
    | integer s => rw [k2 s (by rw [hx]; rfl), k2' s (by rw [hx]; rfl)]
    | octetString s => rw [k2 s (by rw [hx]; rfl), k2' s (by rw [hx]; rfl)]
    | oid s => rw [k2 s (by rw [hx]; rfl), k2' s (by rw [hx]; rfl)]
    | relativeOid s => rw [k2 s (by rw [hx]; rfl), k2' s (by rw [hx]; rfl)]
    | universalString s => rw [k2 s (by rw [hx]; rfl), k2' s (by rw [hx]; rfl)]
    | bitString u s => rw [k2 (u :: s) (by rw [hx]; rfl), k2' (u :: s) (by rw [hx]; rfl)]
    | unknown a => rw [k2 a.data (by rw [hx]; rfl), k2' a.data (by rw [hx]; rfl)]
    | _ => rw [hx] at hd; exact absurd hd (by simp [Determined])
  subst hc
  obtain ⟨id, len, num, rfl, _, hl, _, _, hr⟩ := H.octets
  obtain ⟨id', len', num', rfl, _, hl', _, _, hr'⟩ := H'.octets
  rw [hr] at hr'
  simp only [Option.some.injEq] at hr'
  subst hr'
  exact ⟨id, len, len', c, rfl, rfl, hl, hl'⟩

example : ReturnedDer Tests.D0 [0x02, 0x81, 0x01, 0x05] []
    (.mk ⟨.universal, false, 2, .definite 1, some [2]⟩ (.integer [5])) := .inl ⟨50, rfl⟩

/-! ## C36 -/

mutual
theorem rustEq_refl_obj : ∀ o : BerObject, o.rustEq o = true
  | .mk h c => by
    simp only [BerObject.rustEq, Bool.and_eq_true]
    exact ⟨by simp [Header.rustEq]; cases h.rawTag <;> simp, rustEq_refl_content c⟩
theorem rustEq_refl_content : ∀ c : Content, c.rustEq c = true
  | .endOfContent => by simp [Content.rustEq]
  | .boolean _ => by simp [Content.rustEq]
  | .integer _ => by simp [Content.rustEq]
  | .bitString _ _ => by simp [Content.rustEq]
  | .octetString _ => by simp [Content.rustEq]
  | .null => by simp [Content.rustEq]
  | .enum _ => by simp [Content.rustEq]
  | .oid _ => by simp [Content.rustEq]
  | .relativeOid _ => by simp [Content.rustEq]
  | .str _ _ => by simp [Content.rustEq]
  | .bmpString _ => by simp [Content.rustEq]
  | .universalString _ => by simp [Content.rustEq]
  | .sequence l => by simp only [Content.rustEq]; exact rustEq_refl_list l
  | .set l => by simp only [Content.rustEq]; exact rustEq_refl_list l
  | .utcTime _ => by simp [Content.rustEq]
  | .generalizedTime _ => by simp [Content.rustEq]
  | .optionalNone => by simp [Content.rustEq]
  | .optionalSome o => by simp only [Content.rustEq]; exact rustEq_refl_obj o
  | .tagged _ _ o => by simp [Content.rustEq, rustEq_refl_obj o]
  | .unknown a => by
    simp [Content.rustEq, Header.rustEq]; cases a.header.rawTag <;> simp
theorem rustEq_refl_list : ∀ l : List BerObject, listRustEq l l = true
  | [] => by simp [listRustEq]
  | o :: l => by simp [listRustEq, rustEq_refl_obj o, rustEq_refl_list l]
end

/-- Content denoted under the header rebuilt without raw tag: the same content is denoted under
the original header, except that an unknown element keeps the header it is given. -/
theorem denotes_new {D : Deps} {d : Nat} {h : Header} {c : Bytes} {x : Content}
    (hcls : h.cls = .universal)
    (hD : Denotes D d (Header.new .universal h.constructed h.tag h.length) c x) :
    (Denotes D d h c x ∧ ∀ a, x ≠ .unknown a) ∨
    (x = .unknown ⟨Header.new .universal h.constructed h.tag h.length, c⟩ ∧
      Denotes D d h c (.unknown ⟨h, c⟩)) := by
  generalize hh : Header.new .universal h.constructed h.tag h.length = h' at hD
  have e1 : h'.cls = h.cls := by rw [← hh, hcls]; rfl
  have e2 : h'.constructed = h.constructed := by rw [← hh]; rfl
  have e3 : h'.tag = h.tag := by rw [← hh]; rfl
  have e4 : h'.length = h.length := by rw [← hh]; rfl
  cases hD with
  | leaf d _ _ _ hL =>
    cases x with
    | unknown a =>
      refine .inr ⟨?_, .leaf _ _ _ _ ⟨rfl, ?_⟩⟩
      · rw [hL.1]
      · have := hL.2; rw [e1, e3] at this; exact this
    | _ =>
      left
      refine ⟨.leaf _ _ _ _ ?_, by simp⟩
      simp only [Leaf, e1, e2, e3, e4] at hL ⊢
      try exact hL
  | sequence d _ items h1 h2 h3 h4 h5 =>
    exact .inl ⟨.sequence d h items hcls (by rw [← e3]; exact h2) (by rw [← e2]; exact h3) h4 h5,
      by simp⟩
  | set d _ items h1 h2 h3 h4 h5 =>
    exact .inl ⟨.set d h items hcls (by rw [← e3]; exact h2) (by rw [← e2]; exact h3) h4 h5,
      by simp⟩

/-- C36 in full: at every depth, `parse_der` is a restriction of `parse_ber`; likewise with tag.
"The same object" is equality as in Rust (`==`). -/
def C36Statement : Prop :=
  ∀ (D : Deps) (_ : TimesKnown D) (i rem : Bytes) (o : BerObject),
    (∀ d, parseDerRecursive D d i = .ok (rem, o) →
      ∃ o', parseBerRecursive D d i = .ok (rem, o') ∧ o.rustEq o' = true) ∧
    (∀ tag, parseDerWithTag D tag i = .ok (rem, o) →
      ∃ o', parseBerWithTag D tag i = .ok (rem, o') ∧ o.rustEq o' = true)

/-- C36 is false at depth 0: `parse_der_recursive(i, 0)` accepts a BIT STRING, `parse_ber_recursive`
does not. -/
theorem C36_depth_zero_counterexample : ¬ C36Statement := by
  intro h
  obtain ⟨o', h1, _⟩ := (h Tests.D0 timesKnown_D0 [0x03, 0x01, 0x00] [] _).1 0 rfl
  simp [parseBerRecursive, parseBerAnyR] at h1

/-- C36, what holds for `parse_der`: with positive depth limit (so for `parse_der` itself), same
remainder and the same object in the sense of Rust's `==`.  The two are equal as values unless the
object is unknown.  Missing: depth 0. -/
theorem C36_parse_der_partial (D : Deps) (hT : TimesKnown D) (d : Nat) (i rem : Bytes)
    (o : BerObject) (h : parseDerRecursive D (d + 1) i = .ok (rem, o)) :
    ∃ o', parseBerRecursive D (d + 1) i = .ok (rem, o') ∧ o.rustEq o' = true ∧
      (o' = o ∨ ∃ c, o.content = .unknown
          ⟨Header.new .universal o.header.constructed o.header.tag o.header.length, c⟩ ∧
        o' = .mk o.header (.unknown ⟨o.header, c⟩)) := by
  obtain ⟨hb, c, rfl, H, hl, hmax, hc⟩ := (parseDerRecursive_iff hT).1 h
  have hF : Framed 50 (hb ++ c) o.header c := .definite _ _ _ H.toBerHeader hl
  rcases hc with ⟨h1, h2⟩ | ⟨h1, h2, h3⟩
  · refine ⟨o, parseBerRecursive_iff.2 ⟨hb ++ c, c, by simp, hF, ?_⟩, rustEq_refl_obj o, .inl rfl⟩
    rw [h2]
    exact .leaf _ _ _ _ ⟨rfl, .inl h1⟩
  · rcases denotes_new h1 h3 with ⟨h4, _⟩ | ⟨h4, h5⟩
    · exact ⟨o, parseBerRecursive_iff.2 ⟨hb ++ c, c, by simp, hF, h4⟩, rustEq_refl_obj o, .inl rfl⟩
    · refine ⟨.mk o.header (.unknown ⟨o.header, c⟩),
        parseBerRecursive_iff.2 ⟨hb ++ c, c, by simp, hF, h5⟩, ?_, .inr ⟨c, h4, rfl⟩⟩
      obtain ⟨hh, x⟩ := o
      simp only [BerObject.content_mk, BerObject.header_mk] at h4 h1 ⊢
      subst h4
      simp only [BerObject.rustEq, Bool.and_eq_true]
      refine ⟨by simp [Header.rustEq]; cases hh.rawTag <;> simp, ?_⟩
      simp [Content.rustEq, Header.rustEq, Header.new, h1]

example := C36_parse_der_partial Tests.D0 (fun _ _ _ => by simp [Tests.D0]) 49 [0x30, 0x03, 0x02, 0x01, 0x05, 9] [9] _ rfl

/-- C36 for the typed functions: the same object, exactly, for contents of at most
`MAX_OBJECT_SIZE` octets. -/
theorem C36_with_tag_partial (D : Deps) (tag : Nat) (i rem : Bytes) (o : BerObject)
    (h : parseDerWithTag D tag i = .ok (rem, o))
    (hmax : ∀ L, o.header.length = .definite L → L ≤ 4294967295) :
    parseBerWithTag D tag i = .ok (rem, o) := by
  obtain ⟨hb, c, rfl, H, hl, ht, _, _, hD⟩ := parseDerWithTag_iff.1 h
  exact parseBerWithTag_iff.2 ⟨hb ++ c, c, by simp, .definite _ _ _ H.toBerHeader hl, ht, hmax, hD⟩

example := C36_with_tag_partial Tests.D0 16 [0x30, 0x03, 0x02, 0x01, 0x05, 9] [9] _ rfl (fun L h => by cases h; decide)

/-- C36: the size condition is needed: a BIT STRING of 2^32 contents octets is accepted by
`parse_der_bitstring` and refused by `parse_ber_bitstring`. -/
theorem C36_large_bitstring_counterexample (D : Deps) (c : Bytes) (hc : c.length = 4294967295) :
    parseDerWithTag D 3 ([0x03, 0x85, 0x01, 0x00, 0x00, 0x00, 0x00] ++ (0 :: c) ++ []) =
      .ok ([], .mk ⟨.universal, false, 3, .definite 4294967296, some [3]⟩ (.bitString 0 c)) ∧
    parseBerWithTag D 3 ([0x03, 0x85, 0x01, 0x00, 0x00, 0x00, 0x00] ++ (0 :: c) ++ []) =
      .err (.error .invalidLength) := by
  have H : BerHeader [0x03, 0x85, 0x01, 0x00, 0x00, 0x00, 0x00]
      ⟨.universal, false, 3, .definite 4294967296, some [3]⟩ :=
    ⟨⟨[0x03], [0x85, 0x01, 0x00, 0x00, 0x00, 0x00], 3, rfl, .low 0x03 (by decide),
      .long 0x85 [0x01, 0x00, 0x00, 0x00, 0x00] (by decide) (by decide) (by decide), by decide,
      by decide, rfl⟩, by intro n h; simp at h; subst h; decide, by simp⟩
  have hl : (0 :: c : Bytes).length = 4294967296 := by rw [List.length_cons, hc]
  constructor
  · refine parseDerWithTag_iff.2 ⟨_, 0 :: c, rfl, ⟨H, by simp⟩, by rw [hl]; rfl, rfl, ?_, .inl rfl, ?_⟩
    · refine ⟨by simp, by simp, fun _ u s hh => ?_, by simp⟩
      simp only [List.cons.injEq] at hh
      obtain ⟨rfl, rfl⟩ := hh
      refine ⟨by decide, ?_⟩
      rw [List.drop_of_length_le (by rw [bitsOf_length]; simp)]
      simp
    · exact (denotes_bitString (d := 49) rfl rfl).2 ⟨rfl, 0, c, rfl, rfl⟩
  · rw [parseBerWithTag_definite D 3 H (by rw [hl]), if_neg (by simp),
      if_pos (by rw [hl]; decide)]

example : ∃ r, parseDerRecursive Tests.D0 50 [0x08, 0x01, 0x41] = .ok r ∧
    parseBerRecursive Tests.D0 50 [0x08, 0x01, 0x41] ≠ .ok r := by
  refine ⟨_, rfl, ?_⟩
  simp [show parseBerRecursive Tests.D0 50 [0x08, 0x01, 0x41] = .ok ([], .mk
    ⟨.universal, false, 8, .definite 1, some [8]⟩ (.unknown
      ⟨⟨.universal, false, 8, .definite 1, some [8]⟩, [0x41]⟩)) from rfl, Header.new]

end Verif
