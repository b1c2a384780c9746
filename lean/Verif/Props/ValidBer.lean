import Verif.SpecBer
import Verif.Props.Faults
/-!
# Property C121: every BER document is accepted
-/
namespace Verif
open Outcome Spec

/-! ## Lemmas -/

theorem berLeaf_exists {D : Deps} {h : Header} {c : Bytes} (hc : h.cls = .universal) (hk : h.constructed = false)
    (hl : h.tag = 1 → h.length = .definite c.length) : ∀ num, h.tag = num → BerPrim num c →
      BerSupported D .universal false num c → ∃ x, Leaf D h c x
  | 0, _, p, _ | 8, _, p, _ | 11, _, p, _ | 16, _, p, _ | 17, _, p, _ | 29, _, p, _ => p.elim
  | 1, t, p, _ => by
    match c, p with
    | [b], _ => exact ⟨.boolean (decide (b ≠ 0)), hc, t, hl t, b, rfl, rfl⟩
  | 2, t, _, _ => ⟨.integer c, hc, t, rfl⟩
  | 3, t, p, _ => by
    obtain ⟨u, s, rfl, _⟩ := p
    exact ⟨.bitString u s, hc, t, hk, rfl⟩
  | 4, t, _, _ => ⟨.octetString c, hc, t, rfl⟩
  | 5, t, _, _ => ⟨.null, hc, t⟩
  | 6, t, _, _ => ⟨.oid c, hc, t, rfl⟩
  | 7, t, _, s => ⟨.str .objectDescriptor c, hc, t, hk, rfl, .inr ((s.2 rfl).2.2.2.1 .objectDescriptor (by simp) rfl).2,
      ((s.2 rfl).2.2.2.1 .objectDescriptor (by simp) rfl).1⟩
  | 9, t, _, _ => ⟨.unknown ⟨h, c⟩, rfl, .inr (.inl (by simp [t]))⟩
  | 10, t, _, s => ⟨.enum (base256 c), hc, t, hk, rfl, (s.2 rfl).1 rfl⟩
  | 12, t, p, _ => ⟨.str .utf8 c, hc, t, hk, rfl, .inl rfl, p⟩
  | 13, t, _, _ => ⟨.relativeOid c, hc, t, rfl⟩
  | 14, t, _, _ => ⟨.unknown ⟨h, c⟩, rfl, .inr (.inl (by simp [t]))⟩
  | 15, t, _, _ => ⟨.unknown ⟨h, c⟩, rfl, .inr (.inl (by simp [t]))⟩
  | 18, t, p, _ => ⟨.str .numeric c, hc, t, hk, rfl, p,
      isUtf8_ascii fun b hb => by rcases p b hb with h | h; omega; have := h.2; omega⟩
  | 19, t, p, _ => by
    refine ⟨.str .printable c, hc, t, hk, rfl, p, isUtf8_ascii fun b hb => ?_⟩
    rcases p b hb with h | h | h | h
    · omega
    · omega
    · have := h.2; omega
    · simp only [List.mem_cons, List.not_mem_nil, or_false] at h; omega
  | 20, t, _, s => ⟨.str .t61 c, hc, t, hk, rfl, .inr ((s.2 rfl).2.2.2.1 .t61 (by simp) rfl).2,
      ((s.2 rfl).2.2.2.1 .t61 (by simp) rfl).1⟩
  | 21, t, _, s => ⟨.str .videotex c, hc, t, hk, rfl, .inr ((s.2 rfl).2.2.2.1 .videotex (by simp) rfl).2,
      ((s.2 rfl).2.2.2.1 .videotex (by simp) rfl).1⟩
  | 22, t, p, _ => ⟨.str .ia5 c, hc, t, hk, rfl, p, isUtf8_ascii p⟩
  | 23, t, _, s => let ⟨x, hx⟩ := (s.2 rfl).2.1 rfl; ⟨.utcTime x, hc, t, by rw [hk]; exact hx⟩
  | 24, t, _, s => let ⟨x, hx⟩ := (s.2 rfl).2.2.1 rfl; ⟨.generalizedTime x, hc, t, by rw [hk]; exact hx⟩
  | 25, t, _, s => ⟨.str .graphic c, hc, t, hk, rfl, .inr ((s.2 rfl).2.2.2.1 .graphic (by simp) rfl).2,
      ((s.2 rfl).2.2.2.1 .graphic (by simp) rfl).1⟩
  | 26, t, p, _ => ⟨.str .visible c, hc, t, hk, rfl, fun b hb => ⟨(p b hb).1, by have := (p b hb).2; omega⟩,
      isUtf8_ascii fun b hb => by have := (p b hb).2; omega⟩
  | 27, t, _, s => ⟨.str .general c, hc, t, hk, rfl, .inr ((s.2 rfl).2.2.2.1 .general (by simp) rfl).2,
      ((s.2 rfl).2.2.2.1 .general (by simp) rfl).1⟩
  | 28, t, _, _ => ⟨.universalString c, hc, t, hk, rfl⟩
  | 30, t, p, _ => by
    obtain ⟨cs, h1, h2⟩ := p
    exact ⟨.bmpString c, hc, t, hk, rfl, cs, fun x hx => (h1 x hx).1, h2⟩
  | n + 31, t, _, _ => ⟨.unknown ⟨h, c⟩, rfl, .inr (.inr (by omega))⟩

/-- The constructed encodings that the library reads without looking inside. -/
theorem compositeLeaf_exists {D : Deps} {h : Header} {c : Bytes} (hk : h.constructed = true)
    (hs : BerSupported D h.cls true h.tag c) : ∃ x, Leaf D h c x := by
  by_cases hu : h.cls = .universal
  · obtain ⟨_, s2, s3, _, s4⟩ := hs.2 hu
    have := s4 rfl
    simp only [List.mem_cons, List.not_mem_nil, or_false] at this
    rcases this with t | t | t | t | t | t
    · exact ⟨.octetString c, hu, t, rfl⟩
    · exact ⟨.unknown ⟨h, c⟩, rfl, .inr (.inl (by simp [t]))⟩
    · exact ⟨.unknown ⟨h, c⟩, rfl, .inr (.inl (by simp [t]))⟩
    · obtain ⟨x, hx⟩ := s2 t
      exact ⟨.utcTime x, hu, t, by rw [hk]; exact hx⟩
    · obtain ⟨x, hx⟩ := s3 t
      exact ⟨.generalizedTime x, hu, t, by rw [hk]; exact hx⟩
    · exact ⟨.unknown ⟨h, c⟩, rfl, .inr (.inl (by simp [t]))⟩
  · exact ⟨.unknown ⟨h, c⟩, rfl, .inl hu⟩

theorem berHeader_of {id len : Bytes} {cls : Class} {k : Bool} {num n : Nat} (h1 : MinIdent id cls k num)
    (h2 : LenOctets len (.definite n)) (hn : num < 2 ^ 32) (hl : n < 2 ^ 64) :
    BerHeader (id ++ len) ⟨cls, k, num, .definite n, some id⟩ :=
  ⟨⟨id, len, num, rfl, h1.1, h2, (Nat.mod_eq_of_lt hn).symm, minIdent_length h1 hn, rfl⟩,
    fun n hn => by cases hn; exact hl, by simp⟩

theorem berHeader_indefinite {id : Bytes} {cls : Class} {num : Nat} (h1 : MinIdent id cls true num) (hn : num < 2 ^ 32) :
    BerHeader (id ++ [0x80]) ⟨cls, true, num, .indefinite, some id⟩ :=
  ⟨⟨id, [0x80], num, rfl, h1.1, .indefinite, (Nat.mod_eq_of_lt hn).symm, minIdent_length h1 hn, rfl⟩,
    fun n hn => (by cases hn), fun _ => rfl⟩

theorem items_exist {D : Deps} {d : Nat} : ∀ {es : List Bytes},
    (∀ e ∈ es, ∃ h c x, Framed 50 e h c ∧ Denotes D d h c x) →
    ∃ items : List Item, items.flatMap Item.bytes = es.flatten ∧
      (∀ it ∈ items, Framed 50 it.bytes it.header it.body) ∧ (∀ it ∈ items, Denotes D d it.header it.body it.value)
  | [], _ => ⟨[], rfl, by simp, by simp⟩
  | e :: es, H => by
    obtain ⟨items, k1, k2, k3⟩ := items_exist (es := es) fun x hx => H x (by simp [hx])
    obtain ⟨h, c, x, m1, m2⟩ := H e (by simp)
    refine ⟨⟨e, h, c, x⟩ :: items, by simp [k1], ?_, ?_⟩
    · intro it hit
      rcases List.mem_cons.1 hit with rfl | hit
      · exact m1
      · exact k2 it hit
    · intro it hit
      rcases List.mem_cons.1 hit with rfl | hit
      · exact m2
      · exact k3 it hit

theorem list_denotes {D : Deps} {d : Nat} {es : List Bytes} {h : Header} (hu : h.cls = .universal)
    (hk : h.constructed = true) (ht : h.tag = 16 ∨ h.tag = 17)
    (H : ∀ e ∈ es, ∃ h c x, Framed 50 e h c ∧ Denotes D d h c x) : ∃ x, Denotes D (d + 1) h es.flatten x := by
  obtain ⟨items, k1, k2, k3⟩ := items_exist H
  rw [← k1]
  rcases ht with ht | ht
  · exact ⟨_, .sequence d h items hu ht hk k2 k3⟩
  · exact ⟨_, .set d h items hu ht hk k2 k3⟩

theorem framed_indefinite {hb : Bytes} {h : Header} {es : List Bytes} {m : Nat} (H : BerHeader hb h)
    (hl : h.length = .indefinite) (hes : ∀ e ∈ es, Element LooseEoc LooseEoc (m + 1) e) (hm : m ≤ 48) :
    Framed 50 (hb ++ (es.flatten ++ [0, 0])) h es.flatten := by
  have := Framed.indefinite (n := 50) 48 hb es [0, 0] h rfl H hl (fun e he => Element.mono (hes e he) (by omega))
    ⟨_, eocHeader, rfl, rfl⟩
  simpa using this

theorem primContents_ber {c : Bytes} : ∀ num, PrimContents num c → BerPrim num c
  | 0, p | 8, p | 11, p | 16, p | 17, p | 29, p => p.elim
  | 1, p => by rcases p with rfl | rfl <;> rfl
  | 3, p => by
    obtain ⟨u, s, h1, h2, h3, _⟩ := p
    exact ⟨u, s, h1, h2, h3⟩
  | 23, p => by
    obtain ⟨ds, h1, h2, h3⟩ := p
    exact ⟨ds, _, h3, .inr h1, h2, .inl rfl⟩
  | 24, p => by
    obtain ⟨ds, fs, h1, h2, h3, h4⟩ := p
    refine ⟨ds, fs, _, h3, .inr (.inr h1), h2, ?_, .inr (.inl (.inl rfl))⟩
    rcases h4 with h4 | ⟨gs, last, h4, h5, h6, _⟩
    · exact .inl h4
    · refine .inr ⟨_, _, h4, .inl rfl, by simp, fun b hb => ?_⟩
      rcases List.mem_append.1 hb with hb | hb
      · exact h5 b hb
      · rw [List.mem_singleton.1 hb]; exact h6
  | 2, p | 10, p | 5, p | 6, p | 13, p | 12, p | 18, p | 19, p | 22, p | 26, p | 28, p | 30, p => p
  | 4, _ | 7, _ | 9, _ | 14, _ | 15, _ | 20, _ | 21, _ | 25, _ | 27, _ => trivial
  | n + 31, _ => trivial

theorem berDoc_denotes {D : Deps} {d n : Nat} {e : Bytes} (H : BerDoc LooseEoc (BerSupported D) 50 d n e) (hd : n ≤ 50)
    (hl : e.length < 2 ^ 64) :
    (∃ h c x, Framed 50 e h c ∧ Denotes D d h c x) ∧ (¬ LooseEoc e → Element LooseEoc LooseEoc n e) := by
  induction H with
  | primitive d n id len c cls num h1 h2 h3 h4 =>
    have hb := berHeader_of h1 h2 h4.1 (by simp only [List.length_append] at hl; omega)
    rw [← List.append_assoc]
    refine ⟨⟨⟨cls, false, num, .definite c.length, some id⟩, c, ?_⟩, fun hx => .definite n _ _ c _ hb rfl rfl hx⟩
    suffices h : ∃ x, Leaf D ⟨cls, false, num, .definite c.length, some id⟩ c x by
      obtain ⟨x, hx⟩ := h
      exact ⟨x, .definite _ c _ hb rfl, .leaf _ _ _ _ hx⟩
    by_cases hu : cls = .universal
    · subst hu
      exact berLeaf_exists rfl rfl (fun _ => rfl) num rfl (h3 rfl) h4
    · exact ⟨.unknown ⟨_, c⟩, rfl, .inl hu⟩
  | constructed d n id len c cls num h1 h2 h3 h4 =>
    have hb := berHeader_of h1 h2 h4.1 (by simp only [List.length_append] at hl; omega)
    rw [← List.append_assoc]
    obtain ⟨x, hx⟩ := compositeLeaf_exists (h := ⟨cls, true, num, .definite c.length, some id⟩) rfl h4
    exact ⟨⟨_, c, x, .definite _ c _ hb rfl, .leaf _ _ _ _ hx⟩, fun hx => .definite n _ _ c _ hb rfl rfl hx⟩
  | constructedIndefinite d n id es cls num h1 h2 h3 h4 =>
    have hb := berHeader_indefinite h1 h3.1
    have h5 : ∀ e ∈ es, Element LooseEoc LooseEoc (n + 1) e := fun e he => Element.weaken looseEoc_of_isEoc (h4 e he)
    rw [show id ++ 0x80 :: (es.flatten ++ [0, 0]) = (id ++ [0x80]) ++ (es.flatten ++ [0, 0]) by simp]
    obtain ⟨x, hx⟩ := compositeLeaf_exists (h := ⟨cls, true, num, .indefinite, some id⟩) rfl h3
    exact ⟨⟨_, _, x, framed_indefinite hb rfl h5 (by omega), .leaf _ _ _ _ hx⟩,
      fun _ => .indefinite n _ es _ _ hb rfl h5 (looseEoc_of_isEoc _ rfl)⟩
  | list d n id len es num h1 h2 h3 h4 ih =>
    have hlen : es.flatten.length < 2 ^ 64 := by simp only [List.length_append] at hl; omega
    have hb := berHeader_of h1 h3 (by omega) hlen
    rw [← List.append_assoc]
    obtain ⟨x, hx⟩ := list_denotes (D := D) (d := d) (es := es)
      (h := ⟨.universal, true, num, .definite es.flatten.length, some id⟩) rfl rfl h2
      fun e he => (ih e he (by omega) (Nat.lt_of_le_of_lt (length_le_flatten he) hlen)).1
    exact ⟨⟨_, _, x, .definite _ _ _ hb rfl, hx⟩, fun hx => .definite n _ _ _ _ hb rfl rfl hx⟩
  | listIndefinite d n id es num h1 h2 h3 h4 ih =>
    have hlen : es.flatten.length < 2 ^ 64 := by simp only [List.length_append, List.length_cons] at hl; omega
    have hb := berHeader_indefinite h1 (by omega)
    have ih' := fun e he => ih e he (by omega) (Nat.lt_of_le_of_lt (length_le_flatten he) hlen)
    have h5 : ∀ e ∈ es, Element LooseEoc LooseEoc (n + 1) e := fun e he => (ih' e he).2 (h4 e he)
    rw [show id ++ 0x80 :: (es.flatten ++ [0, 0]) = (id ++ [0x80]) ++ (es.flatten ++ [0, 0]) by simp]
    obtain ⟨x, hx⟩ := list_denotes (D := D) (d := d) (es := es)
      (h := ⟨.universal, true, num, .indefinite, some id⟩) rfl rfl h2 fun e he => (ih' e he).1
    exact ⟨⟨_, _, x, framed_indefinite hb rfl h5 (by omega), hx⟩,
      fun _ => .indefinite n _ es _ _ hb rfl h5 (looseEoc_of_isEoc _ rfl)⟩

/-! ## C121 -/

/-- C121 in full: `parse_ber` accepts every BER document (of less than 2^64 octets), and stops at its end. -/
def C121Statement : Prop :=
  ∀ (D : Deps) (N d n : Nat) (e rest : Bytes), BerDoc IsEoc (fun _ _ _ _ => True) N d n e → e.length < 2 ^ 64 →
    ∃ o, parseBer D (e ++ rest) = .ok (rest, o)

/-- A document with an indefinite length, a length in the long form, a BOOLEAN that DER does not know and
an OCTET STRING in segments: `30 80 01 81 01 05 24 80 04 01 41 00 00 00 00`. -/
theorem berDoc_small (D : Deps) : BerDoc LooseEoc (BerSupported D) 50 50 50
    [0x30, 0x80, 0x01, 0x81, 0x01, 0x05, 0x24, 0x80, 0x04, 0x01, 0x41, 0x00, 0x00, 0x00, 0x00] := by
  have h4 : BerHeader [0x04, 0x01] ⟨.universal, false, 4, .definite 1, some [0x04]⟩ :=
    berHeader_of (minIdent_low 0x04 (by decide)) (.short 1 (by decide)) (by decide) (by decide)
  have h24 : BerHeader [0x24, 0x80] ⟨.universal, true, 4, .indefinite, some [0x24]⟩ :=
    berHeader_indefinite (minIdent_low 0x24 (by decide)) (by decide)
  have h1 : BerHeader [0x01, 0x81, 0x01] ⟨.universal, false, 1, .definite 1, some [0x01]⟩ :=
    berHeader_of (minIdent_low 0x01 (by decide)) (.long 0x81 [1] (by decide) (by decide) rfl) (by decide) (by decide)
  refine .listIndefinite 49 48 [0x30] [[0x01, 0x81, 0x01, 0x05], [0x24, 0x80, 0x04, 0x01, 0x41, 0x00, 0x00]] 16
    (minIdent_low 0x30 (by decide)) (.inl rfl) ?_ ?_
  · simp only [List.forall_mem_cons, List.not_mem_nil, false_imp_iff, implies_true, and_true]
    refine ⟨.primitive 48 48 [0x01] [0x81, 0x01] [0x05] .universal 1 (minIdent_low 0x01 (by decide))
      (.long 0x81 [1] (by decide) (by decide) rfl) (fun _ => rfl) ⟨by decide, fun _ => by simp [strTag]⟩, ?_⟩
    refine .constructedIndefinite 48 47 [0x24] [[0x04, 0x01, 0x41]] .universal 4 (minIdent_low 0x24 (by decide))
      (.inr (by decide)) ⟨by decide, fun _ => by simp [strTag]⟩ ?_
    simp only [List.mem_singleton, forall_eq]
    exact .definite 47 1 [0x04, 0x01] [0x41] _ h4 rfl rfl fun h => by
      simpa using (looseEoc_iff h4 rfl rfl).1 h
  · simp only [List.forall_mem_cons, List.not_mem_nil, false_imp_iff, implies_true, and_true]
    refine ⟨fun h => by simpa using (looseEoc_iff (c := [0x05]) h1 rfl rfl).1 h, ?_⟩
    rintro ⟨h', H', _, hl⟩
    obtain ⟨_, rfl⟩ := berHeader_unique h24 H' (x := [0x04, 0x01, 0x41, 0x00, 0x00]) (x' := []) (by simp)
    cases hl

/-- C121, what holds: BER documents within the limits `BerSupported`, with at most `d` levels of SEQUENCE and SET and 50 of
indefinite lengths, and without elements of number 0 and length 0 directly inside an indefinite length, are accepted by
`parse_ber_recursive` with the depth limit `d`, and so by `parse_ber` if `d` is 50; it stops at their end.
Missing: documents beyond the limits (see the counterexamples). -/
theorem C121_accepted_partial (D : Deps) (d : Nat) (e rest : Bytes)
    (H : BerDoc LooseEoc (BerSupported D) 50 d 50 e) (hl : e.length < 2 ^ 64) :
    ∃ o, parseBerRecursive D d (e ++ rest) = .ok (rest, o) := by
  obtain ⟨⟨h, c, x, h1, h2⟩, _⟩ := berDoc_denotes H (by omega) hl
  exact ⟨.mk h x, parseBerRecursive_iff.2 ⟨e, c, rfl, h1, h2⟩⟩

example := C121_accepted_partial Tests.D0 50 _ [0x07] (berDoc_small _) (by decide)

/-- DER documents are BER documents, without indefinite lengths; the limits are the same. -/
theorem C121_der_is_ber (X : Bytes → Prop) (D : Deps) (d : Nat) (e : Bytes) :
    (DerDoc (fun _ _ _ => True) d e → BerDoc X (fun _ _ _ _ => True) 1 d 1 e) ∧
    (DerDoc (Supported D) d e → BerDoc X (BerSupported D) 1 d 1 e) := by
  have key : ∀ {P : Class → Nat → Bytes → Prop} {Q : Class → Bool → Nat → Bytes → Prop},
      (∀ cls num c, P cls num c → Q cls false num c) →
      (∀ cls num c, P cls num c → cls ≠ .universal ∨ num = 8 ∨ num = 11 ∨ num = 29 → Q cls true num c) →
      DerDoc P d e → BerDoc X Q 1 d 1 e := by
    intro P Q q1 q2 H
    induction H with
    | primitive d id len c cls num h1 h2 h3 h4 =>
      rw [List.append_assoc]
      exact .primitive d 0 id len c cls num h1 h2.1 (fun hu => primContents_ber num (h3 hu)) (q1 _ _ _ h4)
    | list d id len es num h1 h2 h3 h4 ih =>
      rw [List.append_assoc]
      exact .list d 0 id len es num h1 h2 h3.1 ih
    | constructed d id len c cls num h1 h2 h3 h4 =>
      rw [List.append_assoc]
      refine .constructed d 0 id len c cls num h1 h2.1 ?_ (q2 _ _ _ h4 h3)
      rcases h3 with h3 | rfl | rfl | rfl
      · exact .inl h3
      all_goals exact .inr (by decide)
  refine ⟨key (fun _ _ _ _ => trivial) (fun _ _ _ _ _ => trivial), key ?_ ?_⟩
  · rintro cls num c ⟨h1, h2⟩
    exact ⟨h1, fun hu => ⟨(h2 hu).1, (h2 hu).2.1, (h2 hu).2.2.1, (h2 hu).2.2.2, by simp⟩⟩
  · rintro cls num c ⟨h1, h2⟩ h3
    refine ⟨h1, fun hu => ?_⟩
    rcases h3 with h3 | h3
    · exact absurd hu h3
    · refine ⟨by omega, by omega, by omega, (h2 hu).2.2.2, fun _ => ?_⟩
      rcases h3 with rfl | rfl | rfl <;> decide

example := (C121_der_is_ber LooseEoc Tests.D0 50 (Tests.nest 49)).2 (nest_derDoc _ 49 (by decide))

/-- C121 is false for strings in segments: a BIT STRING and a UTF8String. -/
theorem C121_segments_counterexample (D : Deps) :
    (BerDoc IsEoc (fun _ _ _ _ => True) 1 1 1 [0x23, 0x04, 0x03, 0x02, 0x00, 0xff] ∧
      parseBer D [0x23, 0x04, 0x03, 0x02, 0x00, 0xff] = .err (.error .unsupported)) ∧
    (BerDoc IsEoc (fun _ _ _ _ => True) 1 1 1 [0x2c, 0x03, 0x04, 0x01, 0x41] ∧
      parseBer D [0x2c, 0x03, 0x04, 0x01, 0x41] = .err (.error .unsupported)) :=
  ⟨⟨.constructed 0 0 [0x23] [0x04] [0x03, 0x02, 0x00, 0xff] .universal 3 (minIdent_low 0x23 (by decide))
      (.short 4 (by decide)) (.inr (by decide)) trivial, rfl⟩,
    ⟨.constructed 0 0 [0x2c] [0x03] [0x04, 0x01, 0x41] .universal 12 (minIdent_low 0x2c (by decide))
      (.short 3 (by decide)) (.inr (by decide)) trivial, rfl⟩⟩

/-- C121 is false for an element of number 0 and length 0 inside an indefinite length, such as `[0] IMPLICIT NULL`: it is
taken for the end, and the true end is left over. -/
theorem C121_empty_zero_counterexample (D : Deps) :
    BerDoc IsEoc (fun _ _ _ _ => True) 0 2 2 [0x30, 0x80, 0x80, 0x00, 0x00, 0x00] ∧
    parseBer D [0x30, 0x80, 0x80, 0x00, 0x00, 0x00] =
      .ok ([0x00, 0x00], .mk ⟨.universal, true, 16, .indefinite, some [0x30]⟩ (.sequence [])) := by
  refine ⟨?_, rfl⟩
  refine .listIndefinite 1 0 [0x30] [[0x80, 0x00]] 16 (minIdent_low 0x30 (by decide)) (.inl rfl) ?_ ?_
  · simp only [List.mem_singleton, forall_eq]
    exact .primitive 0 0 [0x80] [0x00] [] .contextSpecific 0 (minIdent_low 0x80 (by decide)) (.short 0 (by decide))
      (by simp) trivial
  · simp [IsEoc]

set_option maxRecDepth 100000 in
/-- C121 is false beyond 50 levels, and for large enumerated values and tag numbers, as for DER. -/
theorem C121_limits_counterexample (D : Deps) : ∀ p ∈ ([
    (51, Tests.nest 50, .berMaxDepth),
    (1, [0x0a, 0x05, 0x01, 0x00, 0x00, 0x00, 0x00], .integerTooLarge),
    (1, [0x9f, 0x81, 0x80, 0x80, 0x80, 0x80, 0x00, 0x00], .invalidTag)] : List (Nat × Bytes × BerError)),
    BerDoc IsEoc (fun _ _ _ _ => True) 1 p.1 1 p.2.1 ∧ parseBer D p.2.1 = .err (.error p.2.2) := by
  simp only [List.forall_mem_cons, List.not_mem_nil, false_imp_iff, implies_true, and_true]
  refine ⟨⟨(C121_der_is_ber _ D _ _).1 (C102_depth_counterexample D).1, rfl⟩,
    ⟨(C121_der_is_ber _ D _ _).1 (C102_enumerated_counterexample D).1, rfl⟩,
    ⟨(C121_der_is_ber _ D _ _).1 (C102_tag_counterexample D).1, rfl⟩⟩

/-- C121 as stated is false. -/
theorem C121_full_counterexample : ¬ C121Statement := fun h => by
  obtain ⟨⟨h1, h2⟩, _⟩ := C121_segments_counterexample Tests.D0
  obtain ⟨o, h3⟩ := h Tests.D0 1 1 1 _ [] h1 (by decide)
  rw [List.append_nil, h2] at h3
  simp at h3

end Verif
