import Verif.Lemmas.Element
import Verif.Tests
/-!
# C05-C12 and C43: what is consumed, and behaviour on partial input
-/
namespace Verif
open Outcome Spec

/-! ## C05 -/

/-- C05 for any local parser that starts by reading a header. -/
theorem strict_suffix {α : Type} {p : Bytes → IRes BerError α} (lp : Local p)
    (hp : ∀ i rem a, p i = .ok (rem, a) → rem.length + 2 ≤ i.length) {i rem : Bytes} {a : α}
    (h : p i = .ok (rem, a)) : ∃ consumed, i = consumed ++ rem ∧ 2 ≤ consumed.length := by
  obtain ⟨pre, rfl⟩ := lp.suffix h
  have := hp _ _ _ h
  simp only [List.length_append] at this
  exact ⟨pre, rfl, by omega⟩

theorem parseBerAnyR_pos {D : Deps} {d : Nat} {i rem : Bytes} {o : BerObject}
    (h : parseBerAnyR D d i = .ok (rem, o)) : rem.length + 2 ≤ i.length := by
  unfold parseBerAnyR at h
  split at h
  · simp at h
  · obtain ⟨⟨i1, a⟩, h1, h2⟩ := bind_eq_ok.1 h
    obtain ⟨_, _, h3⟩ := bind_eq_ok.1 h2
    simp at h3
    rw [← h3.1]
    exact anyFromBer_pos h1

theorem parseBerAnyWithTagR_pos {D : Deps} {t d : Nat} {i rem : Bytes} {o : BerObject}
    (h : parseBerAnyWithTagR D t d i = .ok (rem, o)) : rem.length + 2 ≤ i.length := by
  unfold parseBerAnyWithTagR at h
  split at h
  · simp at h
  · obtain ⟨⟨i1, a⟩, h1, h2⟩ := bind_eq_ok.1 h
    obtain ⟨_, _, h3⟩ := bind_eq_ok.1 h2
    obtain ⟨_, _, h4⟩ := bind_eq_ok.1 h3
    simp at h4
    rw [← h4.1]
    exact anyFromBer_pos h1

theorem parseBerWithTag_ok {D : Deps} {t : Nat} {i rem : Bytes} {o : BerObject}
    (h : parseBerWithTag D t i = .ok (rem, o)) :
    ∃ i1 c, headerFromBer i = .ok (i1, o.header) ∧ o.header.tag = t ∧ o.content = c ∧
      berReadElementContentAs D i1 t o.header.length o.header.constructed maxRecursion =
        .ok (rem, c) := by
  unfold parseBerWithTag at h
  obtain ⟨⟨i1, hd⟩, h1, h2⟩ := bind_eq_ok.1 h
  obtain ⟨_, h3, h4⟩ := bind_eq_ok.1 h2
  obtain ⟨⟨i2, c⟩, h5, h6⟩ := bind_eq_ok.1 h4
  simp at h6
  obtain ⟨rfl, rfl⟩ := h6
  have ht : hd.tag = t := by
    simp only [liftRes_eq_ok, Header.assertTag] at h3
    split at h3
    · assumption
    · simp at h3
  exact ⟨i1, c, h1, ht, rfl, by rw [← ht]; exact h5⟩

theorem parseDerWithTag_ok {D : Deps} {t : Nat} {i rem : Bytes} {o : BerObject}
    (h : parseDerWithTag D t i = .ok (rem, o)) :
    ∃ i1 c, headerFromDer i = .ok (i1, o.header) ∧ o.header.tag = t ∧ o.content = c ∧
      derReadElementContentAs D i1 t o.header.length o.header.constructed maxRecursion =
        .ok (rem, c) := by
  unfold parseDerWithTag at h
  obtain ⟨⟨i1, hd⟩, h1, h2⟩ := bind_eq_ok.1 h
  obtain ⟨_, h3, h4⟩ := bind_eq_ok.1 h2
  obtain ⟨⟨i2, c⟩, h5, h6⟩ := bind_eq_ok.1 h4
  simp at h6
  obtain ⟨rfl, rfl⟩ := h6
  have ht : hd.tag = t := by
    simp only [liftRes_eq_ok, Header.assertTag] at h3
    split at h3
    · assumption
    · simp at h3
  exact ⟨i1, c, h1, ht, rfl, by rw [← ht]; exact h5⟩

/-- C05: `parse_ber`, `parse_ber_recursive`. -/
theorem C05_parse_ber_strict_suffix (D : Deps) (d : Nat) (i rem : Bytes) (o : BerObject)
    (h : parseBerRecursive D d i = .ok (rem, o)) :
    ∃ consumed, i = consumed ++ rem ∧ 2 ≤ consumed.length :=
  strict_suffix (local_parseBerAnyR D d) (fun _ _ _ => parseBerAnyR_pos) h

example := C05_parse_ber_strict_suffix Tests.D0 50 [0x30, 0x80, 0x05, 0x00, 0, 0, 9] [9] _ rfl

/-- C05: `parse_ber_any` and `parse_ber_any_with_tag_r`. -/
theorem C05_parse_ber_any_strict_suffix (D : Deps) (i rem : Bytes) :
    (∀ a, parseBerAny i = .ok (rem, a) → ∃ consumed, i = consumed ++ rem ∧ 2 ≤ consumed.length) ∧
    (∀ tag d o, parseBerAnyWithTagR D tag d i = .ok (rem, o) →
      ∃ consumed, i = consumed ++ rem ∧ 2 ≤ consumed.length) :=
  ⟨fun _ h => strict_suffix local_anyFromBer (fun _ _ _ => anyFromBer_pos) h,
   fun tag d _ h => strict_suffix (local_parseBerAnyWithTagR D tag d)
    (fun _ _ _ => parseBerAnyWithTagR_pos) h⟩

example := (C05_parse_ber_any_strict_suffix Tests.D0 [0x30, 0x80, 0x05, 0x00, 0, 0, 9] [9]).1 _ rfl
example := (C05_parse_ber_any_strict_suffix Tests.D0 [0x30, 0x80, 0x05, 0x00, 0, 0, 9] [9]).2 16 50 _ rfl

/-- C05: `parse_der`, `parse_der_recursive`. -/
theorem C05_parse_der_strict_suffix (D : Deps) (d : Nat) (i rem : Bytes) (o : BerObject)
    (h : parseDerRecursive D d i = .ok (rem, o)) :
    ∃ consumed, i = consumed ++ rem ∧ 2 ≤ consumed.length := by
  refine strict_suffix (local_parseDerRecursive D d) (fun i rem o h => ?_) h
  unfold parseDerRecursive at h
  obtain ⟨⟨i1, hd⟩, h1, h2⟩ := bind_eq_ok.1 h
  have h3 := headerFromDer_pos h1
  have h4 : rem.length ≤ i1.length := by
    simp only at h2
    split at h2
    · split at h2
      · simp at h2
      · exact (local_derReadElementContentRecursive D hd d).length_le h2
    · exact (local_derReadElementContentRecursive D hd d).length_le h2
  omega

example := C05_parse_der_strict_suffix Tests.D0 50 [0x30, 0x02, 0x05, 0x00, 9] [9] _ rfl

/-- C05: tag-specific parsers `parse_ber_xxx`, `parse_der_xxx`. -/
theorem C05_typed_strict_suffix (D : Deps) (tag : Nat) (i rem : Bytes) (o : BerObject)
    (h : parseBerWithTag D tag i = .ok (rem, o) ∨ parseDerWithTag D tag i = .ok (rem, o)) :
    ∃ consumed, i = consumed ++ rem ∧ 2 ≤ consumed.length := by
  rcases h with h | h
  · refine strict_suffix (local_parseBerWithTag D tag) (fun i rem o h => ?_) h
    obtain ⟨i1, c, h1, _, _, h2⟩ := parseBerWithTag_ok h
    have := headerFromBer_pos h1
    have := (local_berReadElementContentAs D _ _ _ _).length_le h2
    omega
  · refine strict_suffix (local_parseDerWithTag D tag) (fun i rem o h => ?_) h
    obtain ⟨i1, c, h1, _, _, h2⟩ := parseDerWithTag_ok h
    have := headerFromDer_pos h1
    have := (local_derReadElementContentAs D _ _ _ _).length_le h2
    omega

example := C05_typed_strict_suffix Tests.D0 16 [0x30, 0x02, 0x05, 0x00, 9] [9] _ (.inl rfl)

/-- C05: container combinators, for any closure. -/
theorem C05_container_strict_suffix {E O : Type} [ParseErr E] (R : Rules)
    (f : Bytes → Header → IRes E O) (i rem : Bytes) (v : O)
    (h : container R f i = .ok (rem, v)) :
    ∃ consumed, i = consumed ++ rem ∧ 2 ≤ consumed.length := by
  obtain ⟨hd, c, rem', h1, _⟩ := container_ok.1 h
  obtain ⟨pre, rfl⟩ := (local_frame R).suffix h1
  have := frame_pos h1
  simp only [List.length_append] at this
  exact ⟨pre, rfl, by omega⟩

example : parseBer Tests.D0 [0x05, 0x00, 0xaa] =
    .ok ([0xaa], .mk ⟨.universal, false, 5, .definite 0, some [5]⟩ .null) := rfl

/-! ## C06 -/

/-- C06: `parse_ber_any` on a definite length. -/
theorem C06_parse_ber_any_definite (i rem : Bytes) (a : Any) (L : Nat)
    (h : parseBerAny i = .ok (rem, a)) (hL : a.header.length = .definite L) :
    ∃ hb, BerHeader hb a.header ∧ i = hb ++ a.data ++ rem ∧ a.data.length = L := by
  obtain ⟨i1, h1, h2⟩ := anyFromBer_ok h
  obtain ⟨hb, rfl, H⟩ := headerFromBer_iff.1 h1
  obtain ⟨rfl, hl⟩ := getObjectContent_def_len hL h2
  exact ⟨hb, H, by simp, hl⟩

example := C06_parse_ber_any_definite [0x30, 0x02, 0x05, 0x00, 9] [9] _ 2 rfl rfl

/-- C06: generic and typed BER parsers consume header + L bytes. -/
theorem C06_parse_ber_definite (D : Deps) (i rem : Bytes) (o : BerObject) (L : Nat)
    (h : (∃ d, parseBerRecursive D d i = .ok (rem, o)) ∨
      (∃ tag, parseBerWithTag D tag i = .ok (rem, o)))
    (hL : o.header.length = .definite L) :
    ∃ hb c, BerHeader hb o.header ∧ i = hb ++ c ++ rem ∧ c.length = L := by
  rcases h with ⟨d, h⟩ | ⟨tag, h⟩
  · unfold parseBerRecursive parseBerAnyR at h
    split at h
    · simp at h
    · obtain ⟨⟨i1, a⟩, h1, h2⟩ := bind_eq_ok.1 h
      obtain ⟨o', h3, h4⟩ := bind_eq_ok.1 h2
      simp at h4 h3
      obtain ⟨rfl, rfl⟩ := h4
      have ho : o'.header = a.header := by
        cases d with
        | zero => simp [objectFromAny] at h3
        | succ d =>
          simp only [objectFromAny] at h3
          split at h3
          · simp at h3; rw [← h3]; rfl
          · obtain ⟨_, _, rfl⟩ := map_eq_ok.1 h3; rfl
      rw [ho] at hL ⊢
      obtain ⟨hb, H, e, hl⟩ := C06_parse_ber_any_definite _ _ _ L h1 hL
      exact ⟨hb, a.data, H, e, hl⟩
  · obtain ⟨i1, c, h1, _, _, h2⟩ := parseBerWithTag_ok h
    obtain ⟨hb, rfl, H⟩ := headerFromBer_iff.1 h1
    rw [hL, berReadElementContentAs_eq] at h2
    simp only at h2
    split at h2
    · simp at h2
    split at h2
    · simp at h2
    obtain ⟨data, rfl, hl, _⟩ := readContentGo_def h2
    exact ⟨hb, data, H, by simp, hl⟩

example := C06_parse_ber_definite Tests.D0 [0x30, 0x02, 0x05, 0x00, 9] [9] _ 2 (.inl ⟨50, rfl⟩) rfl

/-- C06: DER parsers (generic and typed) always have a definite length and consume header + L
bytes. -/
theorem C06_parse_der_definite (D : Deps) (i rem : Bytes) (o : BerObject)
    (h : (∃ d, parseDerRecursive D d i = .ok (rem, o)) ∨
      (∃ tag, parseDerWithTag D tag i = .ok (rem, o))) :
    ∃ hb c L, DerHeader hb o.header ∧ o.header.length = .definite L ∧ i = hb ++ c ++ rem ∧
      c.length = L := by
  rcases h with ⟨d, h⟩ | ⟨tag, h⟩
  · unfold parseDerRecursive at h
    obtain ⟨⟨i1, hd⟩, h1, h2⟩ := bind_eq_ok.1 h
    obtain ⟨hb, rfl, H⟩ := headerFromDer_iff.1 h1
    simp only at h2
    cases hlen : hd.length with
    | indefinite => exact absurd hlen H.definite
    | definite L =>
      rw [hlen] at h2
      simp only at h2
      split at h2
      · simp at h2
      have ho : o.header = hd ∧ ∃ c, i1 = c ++ rem ∧ c.length = L := by
        unfold derReadElementContentRecursive at h2
        have hun : derUnknown i1 hd d = .ok (rem, o) →
            o.header = hd ∧ ∃ c, i1 = c ++ rem ∧ c.length = L := by
          intro h3
          unfold derUnknown at h3
          obtain ⟨⟨i2, c⟩, h4, h5⟩ := bind_eq_ok.1 h3
          simp at h5
          obtain ⟨rfl, rfl⟩ := h5
          obtain ⟨rfl, hl⟩ := getObjectContent_def_len hlen h4
          exact ⟨rfl, c, rfl, hl⟩
        split at h2
        · exact hun h2
        · split at h2
          · rename_i r h3
            simp at h2
            obtain ⟨rfl, rfl⟩ := h2
            obtain ⟨l, pre, e1, e2, e3, _⟩ := derReadElementContentAs_ok h3
            rw [hlen] at e1
            simp at e1
            exact ⟨rfl, pre, e2, by omega⟩
          · exact hun h2
          · simp at h2
          · simp at h2
          · simp at h2
      obtain ⟨ho, c, rfl, hl⟩ := ho
      rw [ho]
      exact ⟨hb, c, L, H, hlen, by simp, hl⟩
  · obtain ⟨i1, c, h1, _, _, h2⟩ := parseDerWithTag_ok h
    obtain ⟨hb, rfl, H⟩ := headerFromDer_iff.1 h1
    obtain ⟨l, pre, e1, rfl, e3, _⟩ := derReadElementContentAs_ok h2
    exact ⟨hb, pre, l, H, e1, by simp, e3⟩

example := C06_parse_der_definite Tests.D0 [0x30, 0x02, 0x05, 0x00, 9] [9] _ (.inl ⟨50, rfl⟩)

/-- C06: containers hand the closure exactly the `L` content bytes. -/
theorem C06_container_definite {E O : Type} [ParseErr E] (R : Rules)
    (f : Bytes → Header → IRes E O) (i rem : Bytes) (v : O)
    (h : container R f i = .ok (rem, v)) :
    ∃ hb hd c rem', BerHeader hb hd ∧ f c hd = .ok (rem', v) ∧
      ∀ L, hd.length = .definite L → i = hb ++ c ++ rem ∧ c.length = L := by
  obtain ⟨hd, c, rem', h1, h2⟩ := container_ok.1 h
  obtain ⟨i1, h3, h4⟩ := frame_ok h1
  obtain ⟨hb, rfl, H⟩ : ∃ hb, i = hb ++ i1 ∧ BerHeader hb hd := by
    cases R
    · exact headerFromBer_iff.1 h3
    · obtain ⟨hb, e, H⟩ := headerFromDer_iff.1 h3
      exact ⟨hb, e, H.toBerHeader⟩
  refine ⟨hb, hd, c, rem', H, h2, fun L hL => ?_⟩
  simp only [frameContent, hL] at h4
  obtain ⟨rfl, hl⟩ := takeComplete_ok h4
  simp [hl]

/-- C06: `parse_ber_slice` / `parse_der_slice` return exactly the content bytes. -/
theorem C06_slice_definite (R : Rules) (tag : Nat) (i rem s : Bytes)
    (h : parseSlice R tag i = .ok (rem, s)) :
    ∃ hb hd, BerHeader hb hd ∧ hd.tag = tag ∧
      ∀ L, hd.length = .definite L → i = hb ++ s ++ rem ∧ s.length = L := by
  obtain ⟨hb, hd, c, rem', H, h2, h3⟩ := C06_container_definite R _ i rem s h
  obtain ⟨_, h4, h5⟩ := bind_eq_ok.1 h2
  simp at h5 h4
  obtain ⟨-, rfl⟩ := h5
  refine ⟨hb, hd, H, ?_, h3⟩
  unfold Header.assertTag at h4
  split at h4
  · assumption
  · simp at h4

example : parseSlice .ber Tag.octetString [0x04, 0x02, 0xab, 0xcd, 0xee] =
    .ok ([0xee], [0xab, 0xcd]) := rfl

/-! ## C07 -/

/-- C07: `ber_read_element_header` succeeds exactly on the X.690 grammar and returns what is
written there. -/
theorem C07_ber_header_grammar (i rem : Bytes) (h : Header) :
    headerFromBer i = .ok (rem, h) ↔ ∃ hb, i = hb ++ rem ∧ BerHeader hb h := headerFromBer_iff

example := (C07_ber_header_grammar [0xbf, 0x81, 0x01, 0x82, 0x01, 0x00, 0xee] [0xee] _).1 rfl

/-- C07: `der_read_element_header` accepts the same, without the indefinite form. -/
theorem C07_der_header_grammar (i rem : Bytes) (h : Header) :
    headerFromDer i = .ok (rem, h) ↔ ∃ hb, i = hb ++ rem ∧ DerHeader hb h := headerFromDer_iff

example := (C07_der_header_grammar [0xbf, 0x81, 0x01, 0x82, 0x01, 0x00, 0xee] [0xee] _).1 rfl

/-- C07: consequently the header octets of an input are uniquely determined. -/
theorem C07_header_unambiguous (hb hb' x x' : Bytes) (h h' : Header) (H : BerHeader hb h)
    (H' : BerHeader hb' h') (e : hb ++ x = hb' ++ x') : hb = hb' ∧ h = h' :=
  berHeader_unique H H' e

/-- A long-form tag and length meet the grammar. -/
example : ∃ h, headerFromBer [0xbf, 0x81, 0x01, 0x82, 0x01, 0x00, 0xee] = .ok ([0xee], h) ∧
    h.tag = 129 ∧ h.length = .definite 256 ∧ h.cls = .contextSpecific ∧ h.constructed = true :=
  ⟨_, rfl, rfl, rfl, rfl, rfl⟩

/-! ## C08 -/

/-- C08 in full: different tag numbers give different tags. -/
def C08Statement : Prop :=
  ∀ id id' cls cls' c c' num num' i i' rem rem' a a', IdentOctets id cls c num →
    IdentOctets id' cls' c' num' → num ≠ num' → i = id ++ rem → i' = id' ++ rem' →
    parseIdentifier i = .ok (rem, a) → parseIdentifier i' = .ok (rem', a') → a.tag ≠ a'.tag

/-- C08 is false: `1f 90 80 80 80 05` carries the tag number 2^32 + 5 and decodes to tag 5. -/
theorem C08_tag_number_wraps_counterexample : ¬ C08Statement := by
  intro h
  refine h [0x1f, 0x90, 0x80, 0x80, 0x80, 0x05] [0x05] .universal .universal false false
    4294967301 5 _ _ [] [] ⟨.universal, false, 5, _⟩ ⟨.universal, false, 5, _⟩ ?_ ?_ (by decide)
    rfl rfl rfl rfl rfl
  · exact IdentOctets.high 0x1f [0x90, 0x80, 0x80, 0x80] 0x05 (by decide) (by decide) (by decide)
  · exact IdentOctets.low 0x05 (by decide)

/-- As a consequence `parse_ber` takes such an element for a NULL. -/
theorem C08_parse_ber_wraps_counterexample (D : Deps) :
    parseBer D [0x1f, 0x90, 0x80, 0x80, 0x80, 0x05, 0x00] =
      .ok ([], .mk ⟨.universal, false, 5, .definite 0, some [0x1f, 0x90, 0x80, 0x80, 0x80, 0x05]⟩
        .null) := rfl

/-- C08, exactly: two identifiers yield the same tag if and only if their tag numbers agree modulo 2^32. -/
theorem C08_same_tag_iff (id id' : Bytes) (cls cls' : Class) (c c' : Bool) (num num' : Nat)
    (rem rem' : Bytes) (a a' : Ident) (h : IdentOctets id cls c num) (h' : IdentOctets id' cls' c' num')
    (e : parseIdentifier (id ++ rem) = .ok (rem, a)) (e' : parseIdentifier (id' ++ rem') = .ok (rem', a')) :
    a.tag = a'.tag ↔ num % 2 ^ 32 = num' % 2 ^ 32 := by
  have key : ∀ {id : Bytes} {cls : Class} {c : Bool} {num : Nat} {rem : Bytes} {a : Ident},
      IdentOctets id cls c num → parseIdentifier (id ++ rem) = .ok (rem, a) → a.tag = num % 2 ^ 32 := by
    intro id cls c num rem a h e
    have hl : id.length ≤ 6 := by
      obtain ⟨n, e1, _, _, hl⟩ := parseIdentifier_iff.1 e
      rw [List.append_cancel_right e1]; exact hl
    have := (parseIdentifier_iff (a := ⟨cls, c, num % 2 ^ 32, id⟩) (rem := rem)).2
      ⟨num, rfl, h, rfl, hl⟩
    rw [e] at this
    simp only [ok.injEq, Prod.mk.injEq, true_and] at this
    rw [this]
  rw [key h e, key h' e']

/-- The tag number 5 in one octet and in two. -/
example := C08_same_tag_iff [0x85] [0x9f, 0x05] .contextSpecific .contextSpecific false false 5 5 [] [9] _ _
  (.low 0x85 (by decide)) (.high 0x9f [] 0x05 (by decide) (by simp) (by decide)) rfl rfl

/-- C08 for tag numbers below 2^32 (what is missing: larger numbers, where it is false). -/
theorem C08_tag_numbers_distinct_partial (id id' : Bytes) (cls cls' : Class) (c c' : Bool)
    (num num' : Nat) (rem rem' : Bytes) (a a' : Ident) (h : IdentOctets id cls c num)
    (h' : IdentOctets id' cls' c' num') (hn : num < 2 ^ 32) (hn' : num' < 2 ^ 32)
    (hne : num ≠ num') (e : parseIdentifier (id ++ rem) = .ok (rem, a))
    (e' : parseIdentifier (id' ++ rem') = .ok (rem', a')) :
    a.tag = num ∧ a'.tag = num' ∧ a.tag ≠ a'.tag := by
  have key : ∀ {id : Bytes} {cls : Class} {c : Bool} {num : Nat} {rem : Bytes} {a : Ident},
      IdentOctets id cls c num → num < 2 ^ 32 → parseIdentifier (id ++ rem) = .ok (rem, a) →
      a.tag = num := by
    intro id cls c num rem a h hn e
    have hl : id.length ≤ 6 := by
      obtain ⟨n, e1, _, _, hl⟩ := parseIdentifier_iff.1 e
      rw [List.append_cancel_right e1]; exact hl
    have := (parseIdentifier_iff (a := ⟨cls, c, num % 2 ^ 32, id⟩) (rem := rem)).2
      ⟨num, rfl, h, rfl, hl⟩
    rw [this] at e
    simp at e
    rw [← e]
    exact Nat.mod_eq_of_lt hn
  have h1 := key h hn e
  have h2 := key h' hn' e'
  exact ⟨h1, h2, by rw [h1, h2]; exact hne⟩

example : IdentOctets [0xbf, 0x81, 0x01] .contextSpecific true 129 :=
  IdentOctets.high 0xbf [0x81] 0x01 (by decide) (by decide) (by decide)

/-! ## C09 -/

/-- C09, first half in full: the content of every well-formed (X.690) indefinite-length element
is found. -/
def C09Statement : Prop :=
  ∀ (hb : Bytes) (hd : Header) (es : List Bytes) (rest : Bytes), BerHeader hb hd →
    hd.length = .indefinite → (∀ e ∈ es, Element IsEoc IsEoc 49 e) →
    parseBerAny (hb ++ (es.flatten ++ [0, 0] ++ rest)) = .ok (rest, ⟨hd, es.flatten⟩)

/-- C09 is false: an empty `[0]` element `80 00` inside the content is taken for the end. -/
theorem C09_empty_context_zero_counterexample : ¬ C09Statement := by
  intro h
  have hb : BerHeader [0x30, 0x80] ⟨.universal, true, 16, .indefinite, some [0x30]⟩ := by
    refine ⟨⟨[0x30], [0x80], 16, rfl, ?_, .indefinite, by decide, by simp, rfl⟩, by simp, by simp⟩
    exact IdentOctets.low 0x30 (by decide)
  have he : Element IsEoc IsEoc 49 [0x80, 0x00] := by
    refine .definite 48 0 [0x80, 0x00] [] ⟨.contextSpecific, false, 0, .definite 0, some [0x80]⟩
      ⟨⟨[0x80], [0], 0, rfl, ?_, ?_, by decide, by simp, rfl⟩, ?_, by simp⟩ rfl rfl ?_
    · exact IdentOctets.low 0x80 (by decide)
    · exact LenOctets.short 0 (by decide)
    · intro n hn; simp at hn; omega
    · simp [IsEoc]
  have := h _ _ [[0x80, 0x00]] [] hb rfl (by simpa using he)
  revert this
  rw [show parseBerAny ([0x30, 0x80] ++ ([[0x80, 0x00]].flatten ++ [0, 0] ++ [])) =
    .ok ([0x00, 0x00], ⟨⟨.universal, true, 16, .indefinite, some [0x30]⟩, []⟩) from rfl]
  simp

/-- C09, first half: the content of an indefinite-length element (items of nesting within the
limit, then `00 00`) is exactly the concatenation of the items, and the remainder starts after
the matching `00 00`.  (Missing: items with tag number 0 and length 0 other than `00 00`, such as
`80 00`, are excluded at the levels that are scanned.) -/
theorem C09_indefinite_content_partial (hd : Header) (n : Nat) (es : List Bytes) (rest : Bytes)
    (hl : hd.length = .indefinite) (hc : hd.constructed = true)
    (hes : ∀ e ∈ es, Element IsEoc LooseEoc (n + 1) e) :
    getObjectContent (n + 2) hd (es.flatten ++ [0, 0] ++ rest) = .ok (rest, es.flatten) := by
  have hb : BerHeader [0x30, 0x80] ⟨.universal, true, 16, .indefinite, some [0x30]⟩ := by
    refine ⟨⟨[0x30], [0x80], 16, rfl, ?_, .indefinite, by decide, by simp, rfl⟩, by simp, by simp⟩
    exact IdentOctets.low 0x30 (by decide)
  have hE : Element LooseEoc LooseEoc (n + 2) ([0x30, 0x80] ++ (es.flatten ++ [0, 0])) :=
    .indefinite n _ es _ _ hb rfl
      (fun e he => Element.weaken looseEoc_of_isEoc (hes e he)) (looseEoc_of_isEoc _ rfl)
  obtain ⟨hb', hd', body, e, g1, g2⟩ := skip_complete hE
  obtain ⟨rfl, rfl⟩ := berHeader_unique hb g1 e
  have hbody : body = es.flatten ++ [0, 0] := (List.append_cancel_left e).symm
  subst hbody
  have hs := g2 rest
  have hs' : skipContent (n + 2) hd (es.flatten ++ [0, 0] ++ rest) = .ok (rest, false) := by
    simpa only [skipContent, hl, hc, if_true] using hs
  rw [getObjectContent_of_skip hs']
  simp only [contentOf, hl, if_true]
  have : (es.flatten ++ [0, 0]).length - 2 = es.flatten.length := by simp
  rw [this, List.take_left]

example := C09_indefinite_content_partial ⟨.universal, true, 16, .indefinite, none⟩ 3 [[0x05, 0x00], [0x05, 0x00]] [9] rfl rfl
  (by
    simp only [List.forall_mem_cons, List.not_mem_nil, false_imp_iff, implies_true, and_true]
    exact ⟨element_null, element_null⟩)

/-- C09: the same through `parse_ber_any`. -/
theorem C09_parse_ber_any_indefinite_partial (hb : Bytes) (hd : Header) (es : List Bytes)
    (rest : Bytes) (H : BerHeader hb hd) (hl : hd.length = .indefinite)
    (hes : ∀ e ∈ es, Element IsEoc LooseEoc 49 e) :
    parseBerAny (hb ++ (es.flatten ++ [0, 0] ++ rest)) = .ok (rest, ⟨hd, es.flatten⟩) := by
  unfold parseBerAny anyFromBer
  rw [berHeader_reads H]
  simp only [ok_bind]
  rw [show maxRecursion = 48 + 2 from rfl,
    C09_indefinite_content_partial hd 48 es rest hl (H.indef_constructed hl) hes]
  rfl

/-- A nested indefinite-length element meets the hypotheses. -/
example : Element IsEoc LooseEoc 49 [0x24, 0x80, 0x04, 0x01, 0xaa, 0x00, 0x00] := by
  refine .indefinite 47 [0x24, 0x80] [[0x04, 0x01, 0xaa]] [0, 0]
    ⟨.universal, true, 4, .indefinite, some [0x24]⟩ ?_ rfl ?_ rfl
  · refine ⟨⟨[0x24], [0x80], 4, rfl, ?_, .indefinite, by decide, by simp, rfl⟩, by simp, by simp⟩
    exact IdentOctets.low 0x24 (by decide)
  · intro e he
    simp at he
    subst he
    have H : BerHeader [0x04, 0x01] ⟨.universal, false, 4, .definite 1, some [4]⟩ := by
      refine ⟨⟨[0x04], [0x01], 4, rfl, ?_, ?_, by decide, by simp, rfl⟩, ?_, by simp⟩
      · exact IdentOctets.low 0x04 (by decide)
      · exact LenOctets.short 0x01 (by decide)
      · intro n hn; simp at hn; omega
    exact .definite 47 1 [0x04, 0x01] [0xaa] _ H rfl rfl
      fun hx => by simpa using (looseEoc_iff H rfl rfl).1 hx

/-- C09, converse in full: only `00 00` ends the content. -/
def C09ConverseStatement : Prop :=
  ∀ (i rem : Bytes) (a : Any), parseBerAny i = .ok (rem, a) → a.header.length = .indefinite →
    ∃ hb, BerHeader hb a.header ∧ i = hb ++ a.data ++ [0, 0] ++ rem

/-- The converse is false: a context-specific empty element `80 00` also ends the content. -/
theorem C09_other_terminator_counterexample : ¬ C09ConverseStatement := by
  intro h
  obtain ⟨hb, _, e⟩ := h [0x30, 0x80, 0x05, 0x00, 0x80, 0x00] []
    ⟨⟨.universal, true, 16, .indefinite, some [0x30]⟩, [0x05, 0x00]⟩ rfl rfl
  have h2 := congrArg (fun l => l.reverse.take 2) e
  simp at h2

/-- Worse, with the three-octet terminator `00 81 00` a stray `00` stays in the content. -/
theorem C09_stray_octet_counterexample :
    parseBerAny [0x30, 0x80, 0x05, 0x00, 0x00, 0x81, 0x00] =
      .ok ([], ⟨⟨.universal, true, 16, .indefinite, some [0x30]⟩, [0x05, 0x00, 0x00]⟩) := rfl

/-- C09, converse: an accepted indefinite-length content consists of well-formed elements followed
by a header with tag number 0 and length 0; when that header has two octets the content is exactly
the concatenation of the elements.  (Missing: the terminator need not be `00 00`.) -/
theorem C09_converse_partial (i rem : Bytes) (a : Any) (h : parseBerAny i = .ok (rem, a))
    (hl : a.header.length = .indefinite) :
    ∃ (hb : Bytes) (es : List Bytes) (t : Bytes), BerHeader hb a.header ∧
      i = hb ++ (es.flatten ++ t) ++ rem ∧ (∀ e ∈ es, Element LooseEoc LooseEoc 49 e) ∧
      LooseEoc t ∧ (t.length = 2 → a.data = es.flatten) := by
  obtain ⟨i1, h1, h2⟩ := anyFromBer_ok h
  obtain ⟨hb, rfl, H⟩ := headerFromBer_iff.1 h1
  obtain ⟨es, t, n, hn, rfl, g1, g2, g3⟩ := getObjectContent_indef hl h2
  obtain rfl : n = 48 := by unfold maxRecursion at hn; omega
  refine ⟨hb, es, t, H, by simp, g1, g2, fun ht => ?_⟩
  have : (es.flatten ++ t).length - 2 = es.flatten.length := by
    rw [List.length_append, ht]; omega
  rw [g3, this, List.take_left]

example := C09_converse_partial [0x30, 0x80, 0x05, 0x00, 0, 0, 9] [9] _ rfl rfl

/-! ## C10 -/

/-- C10: generic BER parsers. -/
theorem C10_parse_ber_extension (D : Deps) (d : Nat) (i rem t : Bytes) (o : BerObject)
    (h : parseBerRecursive D d i = .ok (rem, o)) :
    parseBerRecursive D d (i ++ t) = .ok (rem ++ t, o) := (local_parseBerAnyR D d).extend h t

example := C10_parse_ber_extension Tests.D0 50 [0x30, 0x80, 0x05, 0x00, 0, 0, 9] [9] [8] _ rfl

/-- C10: `parse_ber_any`. -/
theorem C10_parse_ber_any_extension (i rem t : Bytes) (a : Any)
    (h : parseBerAny i = .ok (rem, a)) : parseBerAny (i ++ t) = .ok (rem ++ t, a) :=
  local_anyFromBer.extend h t

example := C10_parse_ber_any_extension [0x30, 0x80, 0x05, 0x00, 0, 0, 9] [9] [8] _ rfl

/-- C10: `parse_ber_any_with_tag_r`. -/
theorem C10_parse_ber_any_with_tag_extension (D : Deps) (tag d : Nat) (i rem t : Bytes)
    (o : BerObject) (h : parseBerAnyWithTagR D tag d i = .ok (rem, o)) :
    parseBerAnyWithTagR D tag d (i ++ t) = .ok (rem ++ t, o) :=
  (local_parseBerAnyWithTagR D tag d).extend h t

example := C10_parse_ber_any_with_tag_extension Tests.D0 16 50 [0x30, 0x80, 0x05, 0x00, 0, 0, 9] [9] [8] _ rfl

/-- C10: generic DER parsers. -/
theorem C10_parse_der_extension (D : Deps) (d : Nat) (i rem t : Bytes) (o : BerObject)
    (h : parseDerRecursive D d i = .ok (rem, o)) :
    parseDerRecursive D d (i ++ t) = .ok (rem ++ t, o) := (local_parseDerRecursive D d).extend h t

example := C10_parse_der_extension Tests.D0 50 [0x30, 0x02, 0x05, 0x00, 9] [9] [8] _ rfl

/-- C10: tag-specific parsers. -/
theorem C10_typed_extension (D : Deps) (tag : Nat) (i rem t : Bytes) (o : BerObject) :
    (parseBerWithTag D tag i = .ok (rem, o) → parseBerWithTag D tag (i ++ t) = .ok (rem ++ t, o)) ∧
    (parseDerWithTag D tag i = .ok (rem, o) → parseDerWithTag D tag (i ++ t) = .ok (rem ++ t, o)) :=
  ⟨fun h => (local_parseBerWithTag D tag).extend h t,
   fun h => (local_parseDerWithTag D tag).extend h t⟩

example := (C10_typed_extension Tests.D0 16 [0x30, 0x02, 0x05, 0x00, 9] [9] [8] _).1 rfl

/-- C10: native integers. -/
theorem C10_native_integers_extension (n : Nat) (i rem t : Bytes) :
    (∀ v, parseBerUint n i = .ok (rem, v) → parseBerUint n (i ++ t) = .ok (rem ++ t, v)) ∧
    (∀ v, parseBerInt n i = .ok (rem, v) → parseBerInt n (i ++ t) = .ok (rem ++ t, v)) ∧
    (∀ v, parseDerUint n i = .ok (rem, v) → parseDerUint n (i ++ t) = .ok (rem ++ t, v)) ∧
    (∀ v, parseDerInt n i = .ok (rem, v) → parseDerInt n (i ++ t) = .ok (rem ++ t, v)) :=
  ⟨fun _ h => (local_parseBerUint n).extend h t, fun _ h => (local_parseBerInt n).extend h t,
   fun _ h => (local_parseDerUint n).extend h t, fun _ h => (local_parseDerInt n).extend h t⟩

example := (C10_native_integers_extension 4 [0x02, 0x02, 0x01, 0x00, 9] [9] [8]).1 256 rfl

/-- C10: combinators, for any closure (it never sees the trailing data). -/
theorem C10_container_extension {E O : Type} [ParseErr E] (R : Rules)
    (f : Bytes → Header → IRes E O) (i rem t : Bytes) (v : O)
    (h : container R f i = .ok (rem, v)) : container R f (i ++ t) = .ok (rem ++ t, v) :=
  (local_container R f).extend h t

example : parseBer Tests.D0 ([0x05, 0x00] ++ [0x81, 0x82]) =
    .ok ([0x81, 0x82], .mk ⟨.universal, false, 5, .definite 0, some [5]⟩ .null) := rfl

/-! ## C11 -/

/-- C11 in full, for `parse_ber`. -/
def C11Statement (D : Deps) : Prop :=
  ∀ (i rem : Bytes) (o : BerObject), parseBer D i = .ok (rem, o) →
    ∀ q s, i = q ++ s → rem.length < s.length → ∃ n, parseBer D q = .err (.incomplete n)

/-- C11 is false: `9f 01 00` is accepted but its prefix `9f` is answered `InvalidTag`. -/
theorem C11_truncated_tag_counterexample (D : Deps) : ¬ C11Statement D := by
  intro h
  obtain ⟨n, hn⟩ := h [0x9f, 0x01, 0x00] [] _ rfl [0x9f] [0x01, 0x00] rfl (by decide)
  simp [parseBer, parseBerRecursive, parseBerAnyR, maxRecursion, anyFromBer, headerFromBer,
    parseIdentifier, tagLoop] at hn

/-- C11 fails as well for the container-based parsers: a truncated SEQUENCE is answered with the
definitive error `Eof`, not `Incomplete`. -/
theorem C11_container_counterexample :
    (ofV (E := BerError) .ber Tag.sequence (fun j => takeStreaming 1 j) [0x30, 0x02, 0x01, 0x02]
      = .ok ([], [[0x01], [0x02]])) ∧
    (ofV (E := BerError) .ber Tag.sequence (fun j => takeStreaming 1 j) [0x30, 0x02, 0x01]
      = .err (.error (.nomError .eof))) := ⟨rfl, rfl⟩

/-- The cut points: `q` is a proper prefix of the consumed bytes. -/
theorem truncation_of_local {α : Type} {p : Bytes → IRes BerError α} (lp : Local p) (tp : TruncW p)
    {i rem : Bytes} {a : α} (h : p i = .ok (rem, a)) {q s : Bytes} (e : i = q ++ s)
    (hs : rem.length < s.length) :
    (∃ n, 1 ≤ n ∧ p q = .err (.incomplete (.size n))) ∨
      (p q = .err (.error .invalidTag) ∧ CutInTag q) := by
  obtain ⟨pre, rfl, r⟩ := lp _ _ _ h
  obtain ⟨s', rfl, hne⟩ : ∃ s', pre = q ++ s' ∧ s' ≠ [] := by
    rcases List.append_eq_append_iff.1 e with ⟨x, h1, h2⟩ | ⟨x, h1, h2⟩
    · exfalso; rw [h2] at hs; simp at hs; omega
    · refine ⟨x, h1, ?_⟩
      rintro rfl
      simp at h2
      rw [h2] at hs; omega
  obtain ⟨k, _, ⟨n, h1, h2, _⟩ | h1⟩ := tp _ _ r q s' rfl hne
  · exact .inl ⟨n, h2, h1⟩
  · exact .inr h1

/-- C11 for the generic BER parsers: every cut is answered `Incomplete`, except that a cut inside
a high-tag-number identifier is answered `InvalidTag`.  (Missing: that exception.) -/
theorem C11_parse_ber_truncation_partial (D : Deps) (d : Nat) (i rem q s : Bytes) (o : BerObject)
    (h : parseBerRecursive D d i = .ok (rem, o)) (e : i = q ++ s) (hs : rem.length < s.length) :
    (∃ n, 1 ≤ n ∧ parseBerRecursive D d q = .err (.incomplete (.size n))) ∨
      (parseBerRecursive D d q = .err (.error .invalidTag) ∧ CutInTag q) :=
  truncation_of_local (local_parseBerAnyR D d) (truncOk_parseBerAnyR D d).weak h e hs

example := C11_parse_ber_truncation_partial Tests.D0 50 [0x30, 0x80, 0x05, 0x00, 0, 0, 9] [9] [0x30, 0x80, 0x05] [0x00, 0, 0, 9] _ rfl
  rfl (by decide)

/-- C11 for the generic DER parsers, same exception. -/
theorem C11_parse_der_truncation_partial (D : Deps) (d : Nat) (i rem q s : Bytes) (o : BerObject)
    (h : parseDerRecursive D d i = .ok (rem, o)) (e : i = q ++ s) (hs : rem.length < s.length) :
    (∃ n, 1 ≤ n ∧ parseDerRecursive D d q = .err (.incomplete (.size n))) ∨
      (parseDerRecursive D d q = .err (.error .invalidTag) ∧ CutInTag q) :=
  truncation_of_local (local_parseDerRecursive D d) (truncW_parseDerRecursive D d) h e hs

example := C11_parse_der_truncation_partial Tests.D0 50 [0x30, 0x02, 0x05, 0x00, 9] [9] [0x30, 0x02, 0x05] [0x00, 9] _ rfl
  rfl (by decide)

/-- C11 for the tag-specific BER parsers, same exception. -/
theorem C11_parse_ber_with_tag_truncation_partial (D : Deps) (tag : Nat) (i rem q s : Bytes)
    (o : BerObject) (h : parseBerWithTag D tag i = .ok (rem, o)) (e : i = q ++ s)
    (hs : rem.length < s.length) :
    (∃ n, 1 ≤ n ∧ parseBerWithTag D tag q = .err (.incomplete (.size n))) ∨
      (parseBerWithTag D tag q = .err (.error .invalidTag) ∧ CutInTag q) :=
  truncation_of_local (local_parseBerWithTag D tag) (truncW_parseBerWithTag D tag) h e hs

example := C11_parse_ber_with_tag_truncation_partial Tests.D0 16 [0x30, 0x80, 0x05, 0x00, 0, 0, 9] [9] [0x30, 0x80, 0x05]
  [0x00, 0, 0, 9] _ rfl rfl (by decide)

/-- C11 for the tag-specific DER parsers, same exception. -/
theorem C11_parse_der_with_tag_truncation_partial (D : Deps) (tag : Nat) (i rem q s : Bytes)
    (o : BerObject) (h : parseDerWithTag D tag i = .ok (rem, o)) (e : i = q ++ s)
    (hs : rem.length < s.length) :
    (∃ n, 1 ≤ n ∧ parseDerWithTag D tag q = .err (.incomplete (.size n))) ∨
      (parseDerWithTag D tag q = .err (.error .invalidTag) ∧ CutInTag q) :=
  truncation_of_local (local_parseDerWithTag D tag) (truncW_parseDerWithTag D tag) h e hs

example : parseBer Tests.D0 [0x30, 0x80, 0x05, 0x00, 0x00] = .err (.incomplete (.size 1)) := rfl

/-! ## C12 -/

/-- C12: `parse_ber_recursive` never asks for more bytes than needed. -/
theorem C12_parse_ber_hint (D : Deps) (d : Nat) (i t rem : Bytes) (o : BerObject) (n : Nat)
    (h : parseBerRecursive D d i = .err (.incomplete (.size n)))
    (hok : parseBerRecursive D d (i ++ t) = .ok (rem, o)) : n ≤ t.length :=
  incomplete_lower_bound (local_parseBerAnyR D d) (truncOk_parseBerAnyR D d) h hok

example := C12_parse_ber_hint Tests.D0 50 [0x04, 0x03, 0xaa] [0xbb, 0xcc, 9] [9] _ _ rfl rfl

/-- C12: `parse_ber_any`, native integers (BER and DER). -/
theorem C12_any_and_integers_hint (w : Nat) (i t rem : Bytes) (n : Nat) :
    (∀ a, parseBerAny i = .err (.incomplete (.size n)) → parseBerAny (i ++ t) = .ok (rem, a) →
      n ≤ t.length) ∧
    (∀ v, parseBerUint w i = .err (.incomplete (.size n)) →
      parseBerUint w (i ++ t) = .ok (rem, v) → n ≤ t.length) ∧
    (∀ v, parseDerUint w i = .err (.incomplete (.size n)) →
      parseDerUint w (i ++ t) = .ok (rem, v) → n ≤ t.length) ∧
    (∀ v, parseBerInt w i = .err (.incomplete (.size n)) →
      parseBerInt w (i ++ t) = .ok (rem, v) → n ≤ t.length) ∧
    (∀ v, parseDerInt w i = .err (.incomplete (.size n)) →
      parseDerInt w (i ++ t) = .ok (rem, v) → n ≤ t.length) :=
  ⟨fun _ => incomplete_lower_bound local_anyFromBer truncOk_anyFromBer,
   fun _ => incomplete_lower_bound (local_parseBerUint w) (truncOk_parseBerUint w),
   fun _ => incomplete_lower_bound (local_parseDerUint w) (truncOk_parseDerUint w),
   fun _ => incomplete_lower_bound (local_parseBerInt w) (truncOk_parseBerInt w),
   fun _ => incomplete_lower_bound (local_parseDerInt w) (truncOk_parseDerInt w)⟩

example : parseBer Tests.D0 [0x04, 0x03, 0xaa] = .err (.incomplete (.size 2)) := rfl
example : (parseBer Tests.D0 ([0x04, 0x03, 0xaa] ++ [0xbb, 0xcc])).isOk = true := by decide +kernel

/-- C12 is false for `parse_der` and the tag-specific parsers: with two content bytes announced
and one present they ask for two more, while one is enough. -/
theorem C12_overestimate_counterexample (D : Deps) :
    parseDer D [0x04, 0x02, 0xaa] = .err (.incomplete (.size 2)) ∧
    parseDer D ([0x04, 0x02, 0xaa] ++ [0xbb]) =
      .ok ([], .mk ⟨.universal, false, 4, .definite 2, some [4]⟩ (.octetString [0xaa, 0xbb])) ∧
    parseBerWithTag D Tag.octetString [0x04, 0x02, 0xaa] = .err (.incomplete (.size 2)) ∧
    parseBerWithTag D Tag.octetString ([0x04, 0x02, 0xaa] ++ [0xbb]) =
      .ok ([], .mk ⟨.universal, false, 4, .definite 2, some [4]⟩ (.octetString [0xaa, 0xbb])) :=
  ⟨rfl, rfl, rfl, rfl⟩

/-- C12 for DER and tag-specific parsers: the request never exceeds the size of the completed
input.  (Missing: the sharp bound, which is false.) -/
theorem C12_der_and_typed_hint_partial (D : Deps) (i t rem : Bytes) (o : BerObject) (n : Nat) :
    (∀ d, parseDerRecursive D d i = .err (.incomplete (.size n)) →
      parseDerRecursive D d (i ++ t) = .ok (rem, o) → n ≤ i.length + t.length) ∧
    (∀ tag, parseBerWithTag D tag i = .err (.incomplete (.size n)) →
      parseBerWithTag D tag (i ++ t) = .ok (rem, o) → n ≤ i.length + t.length) ∧
    (∀ tag, parseDerWithTag D tag i = .err (.incomplete (.size n)) →
      parseDerWithTag D tag (i ++ t) = .ok (rem, o) → n ≤ i.length + t.length) :=
  ⟨fun d => incomplete_bound_weak (local_parseDerRecursive D d) (truncW_parseDerRecursive D d),
   fun tag => incomplete_bound_weak (local_parseBerWithTag D tag) (truncW_parseBerWithTag D tag),
   fun tag => incomplete_bound_weak (local_parseDerWithTag D tag) (truncW_parseDerWithTag D tag)⟩

example := (C12_der_and_typed_hint_partial Tests.D0 [0x04, 0x03, 0xaa] [0xbb, 0xcc, 9] [9] _ _).1 50 rfl rfl

end Verif
