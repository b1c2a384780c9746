import Verif.Props.Framing
/-!
# C13-C15 and C43: recursion limit, size limit, definite and indefinite forms
-/
namespace Verif
open Outcome Spec

/-! ## C13 -/

/-- C13: the nesting depth of a returned object is within the limit, and another limit `d'`
gives the same result exactly when the nesting depth is at most `d'`; otherwise
`BerMaxDepth`. -/
theorem C13_depth_exact (D : Deps) (d : Nat) (i rem : Bytes) (o : BerObject)
    (h : parseBerRecursive D d i = .ok (rem, o)) :
    depth o ≤ d ∧ ∀ d', parseBerRecursive D d' i =
      if depth o ≤ d' then .ok (rem, o) else .err (.error .berMaxDepth) := by
  unfold parseBerRecursive parseBerAnyR at *
  split at h
  · simp at h
  rename_i hd0
  obtain ⟨⟨i1, a⟩, h1, h2⟩ := bind_eq_ok.1 h
  obtain ⟨o', h3, h4⟩ := bind_eq_ok.1 h2
  simp at h4 h3
  obtain ⟨rfl, rfl⟩ := h4
  have key := objectFromAny_depth D h3
  refine ⟨?_, fun d' => ?_⟩
  · have := key d
    rw [h3] at this
    by_cases hk : depth o' ≤ d
    · exact hk
    · rw [if_neg hk] at this; simp at this
  · have hp := depth_pos o'
    by_cases hd' : d' = 0
    · rw [if_pos hd', if_neg (by omega)]
    · rw [if_neg hd', h1]
      simp only [ok_bind, key d']
      by_cases hk : depth o' ≤ d'
      · rw [if_pos hk, if_pos hk]; rfl
      · rw [if_neg hk, if_neg hk]; rfl

example := C13_depth_exact Tests.D0 3 [0x30, 0x04, 0x31, 0x02, 0x05, 0x00, 9] [9] _ rfl

/-- C13 for `parse_ber` (limit 50). -/
theorem C13_parse_ber_limit (D : Deps) (d : Nat) (i rem : Bytes) (o : BerObject)
    (h : parseBerRecursive D d i = .ok (rem, o)) :
    parseBer D i = if depth o ≤ 50 then .ok (rem, o) else .err (.error .berMaxDepth) :=
  (C13_depth_exact D d i rem o h).2 50

example := C13_parse_ber_limit Tests.D0 3 [0x30, 0x04, 0x31, 0x02, 0x05, 0x00, 9] [9] _ rfl

/-- C13 for `parse_ber_any_with_tag_r`. -/
theorem C13_with_tag_depth_exact (D : Deps) (tag d : Nat) (i rem : Bytes) (o : BerObject)
    (h : parseBerAnyWithTagR D tag d i = .ok (rem, o)) :
    depth o ≤ d ∧ ∀ d', parseBerAnyWithTagR D tag d' i =
      if depth o ≤ d' then .ok (rem, o) else .err (.error .berMaxDepth) := by
  unfold parseBerAnyWithTagR at *
  split at h
  · simp at h
  rename_i hd0
  obtain ⟨⟨i1, a⟩, h1, h2⟩ := bind_eq_ok.1 h
  obtain ⟨_, h2', h2⟩ := bind_eq_ok.1 h2
  obtain ⟨o', h3, h4⟩ := bind_eq_ok.1 h2
  simp at h4 h3
  obtain ⟨rfl, rfl⟩ := h4
  have key := objectFromAny_depth D h3
  refine ⟨?_, fun d' => ?_⟩
  · have := key d
    rw [h3] at this
    by_cases hk : depth o' ≤ d
    · exact hk
    · rw [if_neg hk] at this; simp at this
  · have hp := depth_pos o'
    by_cases hd' : d' = 0
    · rw [if_pos hd', if_neg (by omega)]
    · rw [if_neg hd', h1]
      simp only [ok_bind, key d', h2']
      by_cases hk : depth o' ≤ d'
      · rw [if_pos hk, if_pos hk]; rfl
      · rw [if_neg hk, if_neg hk]; rfl

/-- A three-level object is accepted with limit 3 and refused with limit 2. -/
example : (parseBerRecursive Tests.D0 3 [0x30, 0x04, 0x31, 0x02, 0x05, 0x00]).isOk = true := by
  decide +kernel
example : parseBerRecursive Tests.D0 2 [0x30, 0x04, 0x31, 0x02, 0x05, 0x00] =
    .err (.error .berMaxDepth) := rfl

/-! ## C14 -/

/-- C14: an element of any nesting of indefinite lengths is accepted (by `parse_ber_any`, hence by
everything built on it) when it is within 50, and otherwise refused with `BerMaxDepth`. -/
theorem C14_indefinite_nesting (m : Nat) (e rest : Bytes)
    (he : Element LooseEoc LooseEoc m e) :
    (Element LooseEoc LooseEoc 50 e → ∃ a, parseBerAny (e ++ rest) = .ok (rest, a)) ∧
    (¬ Element LooseEoc LooseEoc 50 e → parseBerAny (e ++ rest) = .err (.error .berMaxDepth)) := by
  obtain ⟨hb, hd, body, rfl, H, hs⟩ := skip_complete he
  have hs := hs rest
  have hgo : parseBerAny (hb ++ body ++ rest) =
      (getObjectContent maxRecursion hd (body ++ rest) >>? fun s =>
        .ok (s.1, { header := hd, data := s.2 })) := by
    unfold parseBerAny anyFromBer
    rw [List.append_assoc, berHeader_reads H]
    rfl
  rw [hgo]
  rcases skipContent_lower (d' := maxRecursion) hs with h2 | h2
  · have hE : Element LooseEoc LooseEoc 50 (hb ++ body) := by
      obtain ⟨e', h3, h4⟩ := skip_sound (berHeader_reads H (body ++ rest)) h2
      simp only [Bool.false_eq_true, if_false] at h4
      have : e' = hb ++ body := by
        rw [← List.append_assoc] at h3
        exact (List.append_cancel_right h3).symm
      rw [← this]; exact h4
    exact ⟨fun _ => ⟨⟨hd, _⟩, by rw [getObjectContent_of_skip h2]; rfl⟩, fun hn => absurd hE hn⟩
  · have he : getObjectContent maxRecursion hd (body ++ rest) = .err (.error .berMaxDepth) := by
      simp [getObjectContent, h2]
    refine ⟨fun hE => ?_, fun _ => by rw [he]; rfl⟩
    exfalso
    obtain ⟨hb', hd', body', e1, H', hs'⟩ := skip_complete hE
    obtain ⟨rfl, rfl⟩ := berHeader_unique H H' e1
    obtain rfl := List.append_cancel_left e1
    have := hs' rest
    rw [show (50 : Nat) = maxRecursion from rfl, h2] at this
    simp at this

/-- C14: whatever is accepted by `parse_ber_any` has at most 50 nested indefinite lengths. -/
theorem C14_accepted_bounded (i rem : Bytes) (a : Any) (h : parseBerAny i = .ok (rem, a)) :
    ∃ e, i = e ++ rem ∧ (Element LooseEoc LooseEoc 50 e ∨ LooseEoc e) := by
  obtain ⟨i1, h1, h2⟩ := anyFromBer_ok h
  obtain ⟨pre, b, rfl, h3, _⟩ := getObjectContent_ok h2
  obtain ⟨e, h4, h5⟩ := skip_sound h1 h3
  refine ⟨e, h4, ?_⟩
  split at h5
  · exact .inr h5
  · exact .inl h5

example := C14_accepted_bounded [0x30, 0x80, 0x30, 0x80, 0, 0, 0, 0, 9] [9] _ rfl

/-- `k` nested indefinite-length SEQUENCEs. -/
def nestIndef : Nat → Bytes
  | 0 => []
  | k + 1 => [0x30, 0x80] ++ (nestIndef k ++ [0, 0])

theorem berHeader_seqIndef :
    BerHeader [0x30, 0x80] ⟨.universal, true, 16, .indefinite, some [0x30]⟩ := by
  refine ⟨⟨[0x30], [0x80], 16, rfl, ?_, .indefinite, by decide, by simp, rfl⟩, by simp, by simp⟩
  exact IdentOctets.low 0x30 (by decide)

theorem nestIndef_element (k n : Nat) : Element LooseEoc LooseEoc n (nestIndef (k + 1)) ↔
    k + 2 ≤ n := by
  induction k generalizing n with
  | zero =>
    constructor
    · intro h
      generalize hi : nestIndef 1 = i at h
      cases h with
      | definite n l hb c h h1 h2 h3 h4 =>
        have hi : [0x30, 0x80] ++ [0, 0] = hb ++ c := hi
        obtain ⟨rfl, rfl⟩ := berHeader_unique berHeader_seqIndef h1 hi
        simp at h2
      | indefinite n hb es t h h1 h2 h3 h4 => omega
    · intro h
      obtain ⟨m, rfl⟩ : ∃ m, n = m + 2 := ⟨n - 2, by omega⟩
      exact .indefinite m _ [] [0, 0] _ berHeader_seqIndef rfl (by simp)
        (looseEoc_of_isEoc _ rfl)
  | succ k ih =>
    constructor
    · intro h
      generalize hi : nestIndef (k + 1 + 1) = i at h
      cases h with
      | definite n l hb c h h1 h2 h3 h4 =>
        have hi : [0x30, 0x80] ++ (nestIndef (k + 1) ++ [0, 0]) = hb ++ c := hi
        obtain ⟨rfl, rfl⟩ := berHeader_unique berHeader_seqIndef h1 hi
        simp at h2
      | indefinite n hb es t h h1 h2 h3 h4 =>
        have hi : [0x30, 0x80] ++ (nestIndef (k + 1) ++ [0, 0]) = hb ++ (es.flatten ++ t) := hi
        obtain ⟨rfl, rfl⟩ := berHeader_unique berHeader_seqIndef h1 hi
        have hi := List.append_cancel_left hi
        -- the first item is the inner nest
        cases es with
        | nil =>
          exfalso
          obtain ⟨h', H', t1, t2⟩ := h4
          simp only [List.flatten_nil, List.nil_append] at hi
          have hi : [0x30, 0x80] ++ ((nestIndef k ++ [0, 0]) ++ [0, 0]) = t ++ [] := by
            rw [List.append_nil, ← hi]; simp [nestIndef]
          obtain ⟨_, rfl⟩ := berHeader_unique berHeader_seqIndef H' hi
          simp at t2
        | cons e es =>
          have he := h3 e (by simp)
          have := (ih (n + 1)).1 (by
            obtain ⟨hb, hd, body, rfl, H, hs⟩ := skip_complete he
            have hN := (ih (k + 2)).2 (Nat.le_refl _)
            obtain ⟨hb', hd', body', e1, H', hs'⟩ := skip_complete hN
            rw [e1] at hi
            simp only [List.flatten_cons, List.append_assoc] at hi
            obtain ⟨rfl, rfl⟩ := berHeader_unique H H' hi.symm
            have hi := List.append_cancel_left hi
            have a1 := hs' [0, 0]
            have a2 := hs (es.flatten ++ t)
            rw [hi] at a1
            -- both limits read the same content
            have b1 := skipContent_raise (d' := max (n + 1) (k + 2)) (by omega) a1
            have b2 := skipContent_raise (d' := max (n + 1) (k + 2)) (by omega) a2
            rw [b1] at b2
            simp at b2
            rw [e1]
            have : body' = body := by
              rw [← b2] at hi
              exact List.append_cancel_right hi
            rw [this]
            exact he)
          omega
    · intro h
      obtain ⟨m, rfl⟩ : ∃ m, n = m + 2 := ⟨n - 2, by omega⟩
      have := (ih (m + 1)).2 (by omega)
      have h2 := Element.indefinite (T := LooseEoc) (X := LooseEoc) m [0x30, 0x80]
        [nestIndef (k + 1)] [0, 0] _ berHeader_seqIndef rfl
        (by intro e he; simp at he; subst he; exact this) (looseEoc_of_isEoc _ rfl)
      simpa [nestIndef] using h2

/-- C14, sharp: `k + 1` nested indefinite-length SEQUENCEs are readable iff there are at most 49;
more than that gives `BerMaxDepth`. -/
theorem C14_nest_sharp (k : Nat) (rest : Bytes) :
    (k + 1 ≤ 49 → ∃ a, parseBerAny (nestIndef (k + 1) ++ rest) = .ok (rest, a)) ∧
    (49 < k + 1 → parseBerAny (nestIndef (k + 1) ++ rest) = .err (.error .berMaxDepth)) := by
  have h := C14_indefinite_nesting (k + 2) (nestIndef (k + 1)) rest
    ((nestIndef_element k (k + 2)).2 (Nat.le_refl _))
  exact ⟨fun hk => h.1 ((nestIndef_element k 50).2 (by omega)),
    fun hk => h.2 fun hE => by have := (nestIndef_element k 50).1 hE; omega⟩

example : nestIndef 2 = [0x30, 0x80, 0x30, 0x80, 0, 0, 0, 0] := rfl

/-- C14: raising the limit of a content-level parser keeps a successful result. -/
theorem C14_raise_limit (D : Deps) (d d' : Nat) (hd : d ≤ d') (i : Bytes) :
    (∀ h r, getObjectContent d h i = .ok r → getObjectContent d' h i = .ok r) ∧
    (∀ tag len c r, berReadElementContentAs D i tag len c d = .ok r →
      berReadElementContentAs D i tag len c d' = .ok r) ∧
    (∀ tag len c r, derReadElementContentAs D i tag len c d = .ok r →
      derReadElementContentAs D i tag len c d' = .ok r) := by
  have hber : ∀ tag len c r, berReadElementContentAs D i tag len c d = .ok r →
      berReadElementContentAs D i tag len c d' = .ok r := by
    intro tag len c r h
    rw [berReadElementContentAs_eq] at h ⊢
    have go : readContentGo D tag len c d i = .ok r → readContentGo D tag len c d' i = .ok r := by
      intro h
      unfold readContentGo at h ⊢
      obtain ⟨s, h1, h2⟩ := bind_eq_ok.1 h
      obtain ⟨o, h3, h4⟩ := bind_eq_ok.1 h2
      rw [liftRes_eq_ok] at h3
      have := objectFromAny_depth D h3
      have hdep : depth o ≤ d := by
        have := this d
        rw [h3] at this
        by_cases hk : depth o ≤ d
        · exact hk
        · rw [if_neg hk] at this; simp at this
      rw [getObjectContent_raise hd h1]
      simp only [ok_bind, this d']
      rw [if_pos (by omega)]
      exact h4
    cases len with
    | definite l =>
      simp only at h ⊢
      split at h
      · simp at h
      rename_i h1
      split at h
      · simp at h
      rename_i h2
      rw [if_neg h1, if_neg h2]
      exact go h
    | indefinite => exact go h
  refine ⟨fun h r => getObjectContent_raise hd, hber, fun tag len c r h => ?_⟩
  unfold derReadElementContentAs at h ⊢
  obtain ⟨l, h1, h2⟩ := bind_eq_ok.1 h
  rw [h1]
  simp only [ok_bind]
  split at h2
  · simp at h2
  rename_i hl
  rw [if_neg hl]
  split at h2
  · rename_i ht; rw [if_pos ht]; exact h2
  · rename_i ht
    rw [if_neg ht]
    obtain ⟨u, h3, h4⟩ := bind_eq_ok.1 h2
    rw [h3]
    exact hber _ _ _ _ h4

example : (berReadElementContentAs Tests.D0 [0x30, 0x80, 0x00, 0x00] 16 (.definite 4) true 2).isOk
    = true := by decide +kernel

/-! ## C15 -/

/-- C15 in full, for one entry point `p`: announcing a length above the limit gives
`InvalidLength`. -/
def C15Statement {α : Type} (p : Bytes → IRes BerError α) : Prop :=
  ∀ (i i1 : Bytes) (h : Header) (L : Nat), headerFromBer i = .ok (i1, h) →
    h.length = .definite L → 4294967295 < L → p i = .err (.error .invalidLength)

/-- Seven octets announcing an OCTET STRING of 2^32 bytes. -/
def bigOctetString : Bytes := [0x04, 0x85, 0x01, 0x00, 0x00, 0x00, 0x00]

theorem bigOctetString_header (c : Bytes) : headerFromBer (bigOctetString ++ c) =
    .ok (c, ⟨.universal, false, 4, .definite 4294967296, some [4]⟩) := by
  simp [bigOctetString, headerFromBer, parseIdentifier, parseLength, takeStreaming, classOfBits]
  rw [if_neg (by omega)]
  simp [bytesToU64]

theorem bigOctetString_headerDer (c : Bytes) : headerFromDer (bigOctetString ++ c) =
    .ok (c, ⟨.universal, false, 4, .definite 4294967296, some [4]⟩) := by
  simp [bigOctetString, headerFromDer, parseIdentifier, parseLength, takeStreaming, classOfBits]
  rw [if_neg (by omega)]
  simp [bytesToU64]

theorem getObjectContent_short {d l : Nat} {hdr : Header} {i : Bytes}
    (hl : hdr.length = .definite l) (ht : hdr.tag ≠ 0) (hi : i.length < l) :
    getObjectContent (d + 1) hdr i = .err (.incomplete (.size (l - i.length))) := by
  unfold getObjectContent skipContent
  rw [hl]
  simp only
  rw [if_neg (show ¬(l = 0 ∧ hdr.tag = Tag.endOfContent) from fun h => ht h.2)]
  unfold takeStreaming
  rw [if_pos hi, Needed.new, if_neg (by omega)]
  rfl

theorem parseBer_bigOctetString (D : Deps) :
    parseBer D bigOctetString = .err (.incomplete (.size 4294967296)) := by
  have h := bigOctetString_header []
  rw [List.append_nil] at h
  unfold parseBer parseBerRecursive parseBerAnyR anyFromBer
  rw [if_neg (by decide), h]
  simp only [ok_bind]
  rw [show maxRecursion = 49 + 1 from rfl,
    getObjectContent_short (l := 4294967296) rfl (by simp) (by simp)]
  simp

/-- C15 is false for `parse_ber`: it asks for the rest of a 4 GiB object ... -/
theorem C15_parse_ber_counterexample (D : Deps) : ¬ C15Statement (parseBer D) := by
  intro h
  have := h bigOctetString [] _ 4294967296 (bigOctetString_header []) rfl (by decide)
  rw [parseBer_bigOctetString] at this
  simp at this

/-- ... and accepts it when given. -/
theorem C15_parse_ber_accepts_large_counterexample (D : Deps) (c : Bytes)
    (hc : c.length = 4294967296) :
    ∃ h, parseBer D (bigOctetString ++ c) = .ok ([], .mk h (.octetString c)) := by
  refine ⟨⟨.universal, false, 4, .definite 4294967296, some [4]⟩, ?_⟩
  have hg : getObjectContent (49 + 1) ⟨.universal, false, 4, .definite 4294967296, some [4]⟩
      (c ++ []) = .ok ([], c) := getObjectContent_definite rfl c [] hc
  rw [List.append_nil] at hg
  unfold parseBer parseBerRecursive parseBerAnyR anyFromBer
  rw [if_neg (by decide), bigOctetString_header]
  simp only [ok_bind]
  rw [show maxRecursion = 49 + 1 from rfl, hg]
  rfl

/-- C15 is false for `parse_der_with_tag`, which asks for more data before looking at the limit,
and for the containers, which answer `Eof`. -/
theorem C15_typed_der_and_container_counterexample (D : Deps) :
    parseDerWithTag D Tag.octetString bigOctetString = .err (.incomplete (.size 4294967296)) ∧
    parseSlice .ber Tag.octetString bigOctetString = .err (.error (.nomError .eof)) := by
  have h1 := bigOctetString_headerDer []
  have h2 := bigOctetString_header []
  rw [List.append_nil] at h1 h2
  constructor
  · unfold parseDerWithTag
    rw [h1]
    simp [Header.assertTag, Tag.octetString, derReadElementContentAs, Length.definite?,
      Needed.new]
  · unfold parseSlice container frame
    simp only [h2, convertErr_ok, ok_bind]
    simp [takeComplete, ParseErr.ofKind]

/-- C15 for `parse_der` (any depth).  (Missing: the other entry points.) -/
theorem C15_parse_der_partial (D : Deps) (d : Nat) : C15Statement (parseDerRecursive D d) := by
  intro i i1 h L h1 h2 h3
  obtain ⟨hb, rfl, H⟩ := headerFromBer_iff.1 h1
  have h4 : headerFromDer (hb ++ i1) = .ok (i1, h) :=
    headerFromDer_iff.2 ⟨hb, rfl, ⟨H, by rw [h2]; simp⟩⟩
  unfold parseDerRecursive
  rw [h4]
  simp only [ok_bind, h2]
  rw [if_pos (by unfold maxObjectSize; exact h3)]

/-- C15 for `parse_ber_with_tag` and `ber_read_element_content_as` (any tag that matches the
header). -/
theorem C15_parse_ber_with_tag_partial (D : Deps) (i i1 : Bytes) (h : Header) (L : Nat)
    (h1 : headerFromBer i = .ok (i1, h)) (h2 : h.length = .definite L) (h3 : 4294967295 < L) :
    parseBerWithTag D h.tag i = .err (.error .invalidLength) ∧
    ∀ tag c d, berReadElementContentAs D i1 tag h.length c d = .err (.error .invalidLength) := by
  have key : ∀ tag c d, berReadElementContentAs D i1 tag h.length c d =
      .err (.error .invalidLength) := by
    intro tag c d
    rw [berReadElementContentAs_eq, h2]
    simp only
    rw [if_pos (by unfold maxObjectSize; exact h3)]
  refine ⟨?_, key⟩
  unfold parseBerWithTag
  rw [h1]
  simp only [ok_bind, Header.assertTag, if_true, liftRes_ok, key]
  rfl

/-- The hypotheses are met by an ordinary seven-octet header. -/
example : parseDer Tests.D0 bigOctetString = .err (.error .invalidLength) :=
  C15_parse_der_partial _ _ _ _ _ 4294967296 (bigOctetString_header []) rfl (by decide)

/-! ## C43 -/

/-- C43 in full for SEQUENCE and SET: the definite and the indefinite framing of the same
well-formed elements give the same children (and the same errors). -/
def C43Statement (D : Deps) : Prop :=
  ∀ (hb hb' : Bytes) (h h' : Header) (es : List Bytes) (rest : Bytes) (d : Nat),
    BerHeader hb h → BerHeader hb' h' → h.length = .definite es.flatten.length →
    h' = { h with length := .indefinite } → h.cls = .universal → h.tag = 16 ∨ h.tag = 17 →
    (∀ e ∈ es, Element IsEoc IsEoc 49 e) →
    (parseBerRecursive D d (hb ++ es.flatten ++ rest)).map (fun r => (r.1, r.2.content)) =
    (parseBerRecursive D d (hb' ++ es.flatten ++ [0, 0] ++ rest)).map
      (fun r => (r.1, r.2.content))

theorem berHeader_short (b l : UInt8) (hb : b.toNat % 32 ≠ 31) (hl : l.toNat < 128) :
    BerHeader [b, l] ⟨classOf b, constructedBit b, b.toNat % 32, .definite l.toNat, some [b]⟩ := by
  refine ⟨⟨[b], [l], b.toNat % 32, rfl, IdentOctets.low b hb, LenOctets.short l hl, ?_, by simp,
    rfl⟩, ?_, by simp⟩
  · simp only; rw [Nat.mod_eq_of_lt (a := b.toNat % 32)]; omega
  · intro n hn
    simp at hn
    omega

/-- C43 is false as soon as an empty `[0]` element occurs (see C09). -/
theorem C43_empty_context_zero_counterexample (D : Deps) : ¬ C43Statement D := by
  intro h
  have H := berHeader_short 0x30 0x02 (by decide) (by decide)
  have H80 := berHeader_short 0x80 0x00 (by decide) (by decide)
  have := h [0x30, 0x02] [0x30, 0x80] _ ⟨.universal, true, 16, .indefinite, some [0x30]⟩
    [[0x80, 0x00]] [] 50 H berHeader_seqIndef rfl rfl rfl (.inl rfl) (by
      intro e he
      simp at he
      subst he
      exact .definite 48 0 [0x80, 0x00] [] _ H80 rfl rfl (by simp [IsEoc]))
  revert this
  rw [show parseBerRecursive D 50 ([0x30, 0x02] ++ [[0x80, 0x00]].flatten ++ []) =
      .ok ([], .mk _ (.sequence [.mk _ _])) from rfl,
    show parseBerRecursive D 50 ([0x30, 0x80] ++ [[0x80, 0x00]].flatten ++ [0, 0] ++ []) =
      .ok ([0, 0], .mk _ (.sequence [])) from rfl]
  simp [Outcome.map]

/-- C43: definite and indefinite framing of SEQUENCE/SET give the same children and the same
errors.  (Missing: contents holding elements with tag number 0 and length 0.) -/
theorem C43_definite_indefinite_partial (D : Deps) (hb hb' : Bytes) (h h' : Header)
    (es : List Bytes) (rest : Bytes) (d : Nat) (H : BerHeader hb h) (H' : BerHeader hb' h')
    (hl : h.length = .definite es.flatten.length) (hh : h' = { h with length := .indefinite })
    (hcls : h.cls = .universal) (ht : h.tag = 16 ∨ h.tag = 17)
    (hes : ∀ e ∈ es, Element IsEoc LooseEoc 49 e) :
    (parseBerRecursive D d (hb ++ es.flatten ++ rest)).map (fun r => (r.1, r.2.content)) =
    (parseBerRecursive D d (hb' ++ es.flatten ++ [0, 0] ++ rest)).map
      (fun r => (r.1, r.2.content)) := by
  have a1 : anyFromBer (hb ++ es.flatten ++ rest) = .ok (rest, ⟨h, es.flatten⟩) := by
    unfold anyFromBer
    rw [List.append_assoc, berHeader_reads H]
    simp only [ok_bind]
    rw [show maxRecursion = 49 + 1 from rfl, getObjectContent_definite hl _ _ rfl]
    rfl
  have a2 : anyFromBer (hb' ++ es.flatten ++ [0, 0] ++ rest) = .ok (rest, ⟨h', es.flatten⟩) := by
    have := C09_parse_ber_any_indefinite_partial hb' h' es rest H' (by rw [hh]) hes
    unfold parseBerAny at this
    rw [← this]
    simp
  unfold parseBerRecursive parseBerAnyR
  split
  · rfl
  rw [a1, a2]
  simp only [ok_bind]
  cases d with
  | zero => rfl
  | succ d =>
    have hu : universalContent D (objectFromAny D d) ⟨h, es.flatten⟩ =
        universalContent D (objectFromAny D d) ⟨h', es.flatten⟩ := by
      subst hh
      rcases ht with ht | ht
      · rw [universalContent_sequence (by simp [ht, uKind]),
          universalContent_sequence (by simp [ht, uKind])]
        rfl
      · rw [universalContent_set (by simp [ht, uKind]), universalContent_set (by simp [ht, uKind])]
        rfl
    have hc1 : ¬ (h.cls ≠ .universal) := by simp [hcls]
    have hc2 : ¬ (h'.cls ≠ .universal) := by simp [hh, hcls]
    simp only [objectFromAny]
    rw [if_neg hc1, if_neg hc2, hu]
    cases universalContent D (objectFromAny D d) ⟨h', es.flatten⟩ <;> rfl

example := C43_definite_indefinite_partial Tests.D0 [0x30, 0x04] [0x30, 0x80] _ _ [[0x05, 0x00], [0x05, 0x00]] [9] 50
  (berHeader_read rfl) (berHeader_read rfl) rfl rfl rfl (.inl rfl)
  (by
    simp only [List.forall_mem_cons, List.not_mem_nil, false_imp_iff, implies_true, and_true]
    exact ⟨element_null, element_null⟩)

/-- The raw content of any constructed element is the same in both forms. -/
theorem C43_any_partial (hb hb' : Bytes) (h h' : Header)
    (es : List Bytes) (rest : Bytes) (H : BerHeader hb h) (H' : BerHeader hb' h')
    (hl : h.length = .definite es.flatten.length) (hl' : h'.length = .indefinite)
    (hes : ∀ e ∈ es, Element IsEoc LooseEoc 49 e) :
    parseBerAny (hb ++ es.flatten ++ rest) = .ok (rest, ⟨h, es.flatten⟩) ∧
    parseBerAny (hb' ++ es.flatten ++ [0, 0] ++ rest) = .ok (rest, ⟨h', es.flatten⟩) := by
  constructor
  · unfold parseBerAny anyFromBer
    rw [List.append_assoc, berHeader_reads H]
    simp only [ok_bind]
    rw [show maxRecursion = 49 + 1 from rfl, getObjectContent_definite hl _ _ rfl]
    rfl
  · rw [← C09_parse_ber_any_indefinite_partial hb' h' es rest H' hl' hes]
    simp

/-- A SEQUENCE of two elements in both framings. -/
example : (parseBer Tests.D0 [0x30, 0x05, 0x02, 0x01, 0x07, 0x05, 0x00]).map (·.2.content) =
    (parseBer Tests.D0 [0x30, 0x80, 0x02, 0x01, 0x07, 0x05, 0x00, 0x00, 0x00]).map
      (·.2.content) := rfl

end Verif
