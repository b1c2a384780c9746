import Verif.SpecCode
import Verif.Props.FailTyped
import Verif.Props.FailContent
import Verif.Props.FailInt
import Verif.Props.FailComb
import Verif.Tests
/-!
# Property C120: error codes
-/
namespace Verif
open Outcome Spec

theorem headerFails_code {R : Bool → Option BerError} {q : Bytes} {e : BerError} (h : HeaderFails R q e) :
    e = .invalidTag ∨ e = .invalidLength ∨ ∃ k, R k = some e := by
  cases h with
  | tag => exact .inl rfl
  | reserved => exact .inr (.inl rfl)
  | huge => exact .inr (.inl rfl)
  | indefinite _ _ _ k _ _ _ _ h => exact .inr (.inr ⟨k, h⟩)

theorem headerFails_ber_code {q : Bytes} {e : BerError} (h : HeaderFails berIndefinite q e) : e ∈ frameCodes := by
  rcases headerFails_code h with rfl | rfl | ⟨k, h⟩
  · simp [frameCodes]
  · simp [frameCodes]
  · cases k <;> simp [berIndefinite] at h
    subst h
    simp [frameCodes]

theorem frameFails_code {n : Nat} {q : Bytes} {e : BerError} (h : FrameFails n q e) : e ∈ frameCodes := by
  induction h with
  | header _ _ _ h => exact headerFails_ber_code h
  | depth => simp [frameCodes]
  | inside _ _ _ _ _ _ _ _ _ _ ih => exact ih

theorem frame_ber {e : BerError} (h : e ∈ frameCodes) : e ∈ berCodes := List.mem_append_left _ h
theorem ber_der {e : BerError} (h : e ∈ berCodes) : e ∈ derCodes := List.mem_append_left _ h

theorem CodeIn.mono {D : Deps} {cs cs' : List BerError} {e : BerError} (hs : ∀ e ∈ cs, e ∈ cs') (h : CodeIn D cs e) :
    CodeIn D cs' e := by
  rcases h with h | h | h
  · exact .inl (hs _ h)
  · exact .inr (.inl h)
  · exact .inr (.inr h)

theorem leafFails_code {D : Deps} {h : Header} {c : Bytes} {e : BerError} (hl : LeafFails D h c e) :
    CodeIn D berCodes e := by
  cases hl with
  | utcTime _ _ h => exact .inr (.inr ⟨_, _, .inl h⟩)
  | generalizedTime _ _ h => exact .inr (.inr ⟨_, _, .inr h⟩)
  | _ => exact .inl (by simp [berCodes, frameCodes])

theorem contentFails_code {D : Deps} {d : Nat} {h : Header} {c : Bytes} {e : BerError}
    (hc : ContentFails D d h c e) : CodeIn D berCodes e := by
  induction hc with
  | depth => exact .inl (by simp [berCodes, frameCodes])
  | leaf _ _ _ _ _ h => exact leafFails_code h
  | frame _ _ _ _ _ _ _ _ _ _ h => exact .inl (frame_ber (frameFails_code h))
  | cut => exact .inr (.inl ⟨_, rfl⟩)
  | member _ _ _ _ _ _ _ _ _ _ _ _ _ _ ih => exact ih

theorem ruleFails_code {tag : Nat} {k : Bool} {c : Bytes} {e : BerError} (h : RuleFails tag k c e) : e ∈ derCodes := by
  cases h <;> simp [derCodes, berCodes, frameCodes]

theorem derFails_code {D : Deps} {d tag : Nat} {k : Bool} {c rest : Bytes} {e : BerError}
    (h : DerFails D d tag k c rest e) : CodeIn D derCodes e := by
  cases h with
  | rule _ _ _ h => exact .inl (ruleFails_code h)
  | emptyBitsUnused => exact .inl (by simp [derCodes])
  | emptyBits => exact .inl (by simp [derCodes, berCodes, frameCodes])
  | size => exact .inl (by simp [derCodes, berCodes, frameCodes])
  | contents _ _ _ _ _ _ h => exact CodeIn.mono (fun _ => ber_der) (contentFails_code h)

theorem headerFails_der_code {q : Bytes} {e : BerError} (h : HeaderFails derIndefinite q e) : e ∈ derCodes := by
  rcases headerFails_code h with rfl | rfl | ⟨k, h⟩
  · simp [derCodes, berCodes, frameCodes]
  · simp [derCodes, berCodes, frameCodes]
  · simp only [derIndefinite, Option.some.injEq] at h
    subst h
    simp [derCodes]

/-! ## C120: which codes -/

/-- C120: the error codes of `parse_ber_recursive`. -/
theorem C120_ber_codes (D : Deps) (d : Nat) (i : Bytes) (e : BerError)
    (h : parseBerRecursive D d i = .err (.error e)) : CodeIn D berCodes e := by
  rw [C84_rejected_iff] at h
  cases h with
  | depth => exact .inl (by simp [berCodes, frameCodes])
  | frame _ _ _ h => exact .inl (frame_ber (frameFails_code h))
  | contents _ _ _ _ _ _ _ h => exact contentFails_code h

/-- A BOOLEAN in two octets in a SEQUENCE. -/
example := C120_ber_codes Tests.D0 50 [0x30, 0x04, 0x01, 0x02, 0xff, 0xff] .invalidLength rfl

/-- C120: the error codes of `parse_der_recursive`. -/
theorem C120_der_codes (D : Deps) (d : Nat) (i : Bytes) (e : BerError)
    (h : parseDerRecursive D d i = .err (.error e)) : CodeIn D derCodes e := by
  rw [C85_rejected_iff] at h
  cases h with
  | header _ _ h => exact .inl (headerFails_der_code h)
  | size => exact .inl (by simp [derCodes, berCodes, frameCodes])
  | depth => exact .inl (by simp [derCodes, berCodes, frameCodes])
  | contents _ _ _ _ _ _ _ _ _ h => exact derFails_code h

example := C120_der_codes Tests.D0 50 [0x01, 0x01, 0x05] _ rfl

/-- C120: the functions for one type have one code more, which names the tag expected and a different one that was
found. -/
theorem C120_typed_codes (D : Deps) (tag : Nat) (i : Bytes) (e : BerError) :
    (parseBerWithTag D tag i = .err (.error e) →
      CodeIn D berCodes e ∨ ∃ t, t ≠ tag ∧ e = .unexpectedTag (some tag) t) ∧
    (parseDerWithTag D tag i = .err (.error e) →
      CodeIn D derCodes e ∨ ∃ t, t ≠ tag ∧ e = .unexpectedTag (some tag) t) := by
  rw [C86_ber_rejected_iff, C86_der_rejected_iff]
  constructor
  · intro h
    cases h with
    | header _ _ h => exact .inl (.inl (frame_ber (headerFails_ber_code h)))
    | tag _ _ h _ hn => exact .inr ⟨_, hn, rfl⟩
    | size => exact .inl (.inl (by simp [berCodes, frameCodes]))
    | frame _ _ _ _ _ _ _ h => exact .inl (.inl (frame_ber (frameFails_code h)))
    | contents _ _ _ _ _ _ _ _ h => exact .inl (contentFails_code h)
  · intro h
    cases h with
    | header _ _ h => exact .inl (.inl (headerFails_der_code h))
    | tag _ _ h _ hn => exact .inr ⟨_, hn, rfl⟩
    | contents _ _ _ _ _ _ _ _ h => exact .inl (derFails_code h)

example := (C120_typed_codes Tests.D0 1 [0x02, 0x01, 0x05] _).1 rfl
example := (C120_typed_codes Tests.D0 1 [0x01, 0x01, 0x05] _).2 rfl

/-- C120: the codes of the functions for contents; only here an indefinite length is `IndefiniteLengthUnexpected`. -/
theorem C120_content_codes (D : Deps) (tag d : Nat) (h : Header) (i : Bytes) (e : BerError) :
    (parseBerContent D tag i h d = .err (.error e) → CodeIn D berCodes e) ∧
    (parseDerContent D tag i h d = .err (.error e) →
      CodeIn D derCodes e ∨ (e = .indefiniteLengthUnexpected ∧ h.length = .indefinite)) := by
  rw [C89_ber_rejected_iff, C89_der_rejected_iff]
  constructor
  · intro h
    revert h
    generalize h.length = L
    intro h
    cases h with
    | inside _ _ _ _ _ _ h => exact .inl (frame_ber (frameFails_code h))
    | contents _ _ _ _ _ _ _ _ h => exact contentFails_code h
    | _ => exact .inl (by simp [berCodes, frameCodes])
  · rintro (⟨h1, h2⟩ | ⟨c, rest, _, _, h⟩)
    · exact .inr ⟨h2, h1⟩
    · exact .inl (derFails_code h)

example := (C120_content_codes Tests.D0 1 50 ⟨.universal, false, 1, .definite 2, none⟩ [0, 0] _).1 rfl
example := (C120_content_codes Tests.D0 4 50 ⟨.universal, true, 4, .indefinite, none⟩ [0, 0] _).2 rfl

/-- C120: what a container combinator adds to the answers of its closure: a request for octets, a code for an element
that cannot be delimited, or `Eof` where the contents of known length are not all there. -/
theorem C120_container_codes {E O : Type} [ParseErr E] (R : Rules) (f : Bytes → Header → IRes E O) (i : Bytes)
    (x : NomErr E) (h : container R f i = .err x) :
    (∃ rem hd c, FramedBy R i rem hd c ∧ f c hd = .err x) ∨
    (∃ n, x = .incomplete (.size n)) ∨ (∃ after, x = .error (ParseErr.ofKind after .eof)) ∨
    ∃ e, x = .error (ParseErr.ofBer e) ∧
      (e ∈ frameCodes ∨ (R = .der ∧ e = .derConstraintFailed .indefiniteLength)) := by
  rcases C88_cover R i with ⟨rem, hd, c, hF⟩ | ⟨r, hU⟩
  · refine .inl ⟨rem, hd, c, hF, ?_⟩
    unfold container at h
    rw [frame_iff.2 hF, ok_bind] at h
    dsimp only at h
    rcases bind_eq_err.1 h with h | ⟨s, _, h⟩
    · exact h
    · simp at h
  · rw [C88_unframed R f i r hU] at h
    simp only [err.injEq] at h
    subst h
    refine .inr ?_
    cases hU with
    | cut _ n => exact .inl ⟨n, rfl⟩
    | header _ e h =>
      refine .inr (.inr ⟨e, rfl, ?_⟩)
      cases R
      · exact .inl (headerFails_ber_code h)
      · rcases headerFails_code h with rfl | rfl | ⟨k, h⟩
        · exact .inl (by simp [frameCodes])
        · exact .inl (by simp [frameCodes])
        · simp only [indefiniteBy, derIndefinite, Option.some.injEq] at h
          exact .inr ⟨rfl, h.symm⟩
    | contents => exact .inr (.inl ⟨_, rfl⟩)
    | insideCut _ _ _ n => exact .inl ⟨n, rfl⟩
    | inside _ _ _ e _ _ _ h => exact .inr (.inr ⟨e, rfl, .inl (frameFails_code h)⟩)

example := C120_container_codes (E := BerError) .der
  (fun i h => if h.tag = 4 then .ok ([], i) else .err (.error .berTypeError)) [0x02, 0x01, 0x05] _ rfl

/-- C120: some codes of `BerError` never come from the functions for any type, unless from the date library. -/
theorem C120_never (D : Deps) (d : Nat) (i : Bytes) (e : BerError)
    (h : parseBerRecursive D d i = .err (.error e) ∨ parseDerRecursive D d i = .err (.error e))
    (hT : ¬ TimeError D e) :
    e ≠ .berTypeError ∧ (∀ t, e ≠ .unknownTag t) ∧ (∀ x t, e ≠ .unexpectedTag x t) ∧
      (∀ x t, e ≠ .unexpectedClass x t) ∧ e ≠ .indefiniteLengthUnexpected ∧ e ≠ .integerNegative ∧
      e ≠ .invalidDateTime ∧ ∀ k, e ≠ .nomError k := by
  have hc : CodeIn D derCodes e := by
    rcases h with h | h
    · exact CodeIn.mono (fun _ => ber_der) (C120_ber_codes D d i e h)
    · exact C120_der_codes D d i e h
  rcases hc with h | ⟨n, rfl⟩ | h
  · simp only [derCodes, berCodes, frameCodes, List.cons_append, List.nil_append, List.mem_cons, List.not_mem_nil,
      or_false] at h
    rcases h with rfl | rfl | rfl | rfl | rfl | rfl | rfl | rfl | rfl | rfl | rfl | rfl | rfl | rfl | rfl | rfl | rfl <;>
      simp
  · simp
  · exact absurd h hT

example := C120_never Tests.D0 50 [0x30, 0x04, 0x01, 0x02, 0xff, 0xff] .invalidLength (.inl rfl)
  (by rintro ⟨k, c, h | h⟩ <;> simp [Tests.D0] at h)

/-- C120: the lists are exact: each code is the answer to some input, whatever the date library. -/
theorem C120_codes_occur (D : Deps) :
    (∀ e ∈ berCodes, ∃ i, parseBer D i = .err (.error e)) ∧
    (∀ e ∈ derCodes, ∃ i, parseDer D i = .err (.error e)) ∧
    (∃ i, parseBer D i = .err (.error (.incomplete (.size 1))) ∧
      parseDer D i = .err (.error (.incomplete (.size 1)))) := by
  refine ⟨?_, ?_, [0x30, 0x03, 0x04, 0x02, 0x01], rfl, rfl⟩
  · intro e he
    simp only [berCodes, frameCodes, List.cons_append, List.nil_append, List.mem_cons, List.not_mem_nil,
      or_false] at he
    rcases he with rfl | rfl | rfl | rfl | rfl | rfl | rfl | rfl | rfl
    · exact ⟨[0x1f], rfl⟩
    · exact ⟨[0x02, 0xff], rfl⟩
    · exact ⟨[0x02, 0x80], rfl⟩
    · exact ⟨(List.replicate 51 [0x30, 0x80]).flatten, rfl⟩
    · exact ⟨[0x2a, 0x00], rfl⟩
    · exact ⟨[0x0a, 0x05, 0x01, 0x00, 0x00, 0x00, 0x00], rfl⟩
    · exact ⟨[0x03, 0x00], rfl⟩
    · exact ⟨[0x23, 0x01, 0x00], rfl⟩
    · exact ⟨[0x12, 0x01, 0x41], rfl⟩
  · intro e he
    simp only [derCodes, berCodes, frameCodes, List.cons_append, List.nil_append, List.mem_cons, List.not_mem_nil,
      or_false] at he
    rcases he with rfl | rfl | rfl | rfl | rfl | rfl | rfl | rfl | rfl | rfl | rfl | rfl | rfl | rfl | rfl | rfl | rfl
    · exact ⟨[0x1f], rfl⟩
    · exact ⟨[0x02, 0xff], rfl⟩
    · exact ⟨[0x10, 0x00], rfl⟩
    · exact ⟨0x30 :: 0x66 :: (List.replicate 51 [0x30, 0x80]).flatten, rfl⟩
    · exact ⟨[0x2a, 0x00], rfl⟩
    · exact ⟨[0x0a, 0x05, 0x01, 0x00, 0x00, 0x00, 0x00], rfl⟩
    · exact ⟨[0x30, 0x02, 0x03, 0x00], rfl⟩
    · exact ⟨[0x30, 0x03, 0x23, 0x01, 0x00], rfl⟩
    · exact ⟨[0x12, 0x01, 0x41], rfl⟩
    · exact ⟨[0x03, 0x02, 0x08, 0x00], rfl⟩
    · exact ⟨[0x30, 0x80], rfl⟩
    · exact ⟨[0x23, 0x01, 0x00], rfl⟩
    · exact ⟨[0x01, 0x01, 0x05], rfl⟩
    · exact ⟨[0x02, 0x00], rfl⟩
    · exact ⟨[0x02, 0x02, 0x00, 0x01], rfl⟩
    · exact ⟨[0x03, 0x02, 0x01, 0x01], rfl⟩
    · exact ⟨[0x17, 0x01, 0x00], rfl⟩

/-! ## C120: where the fault is -/

theorem frameFails_within {n : Nat} {q : Bytes} {e : BerError} (h : FrameFails n q e) (he : e ≠ .berMaxDepth) :
    ∃ r, Within q r ∧ HeaderFails berIndefinite r e := by
  induction h with
  | header _ q _ h => exact ⟨q, .here q, h⟩
  | depth => exact absurd rfl he
  | inside n hb es q h e H hl hes _ ih =>
    obtain ⟨r, h1, h2⟩ := ih he
    exact ⟨r, .indefinite hb h es q r H hl (fun x hx => ⟨n, hes x hx⟩) h1, h2⟩

theorem items_bytes_flatten (items : List Item) : items.flatMap Item.bytes = (items.map Item.bytes).flatten := by
  rw [List.flatMap_def]

theorem items_framed {D : Deps} {d : Nat} {items : List Item}
    (h : ∀ it ∈ items, Framed 50 it.bytes it.header it.body ∧ Denotes D d it.header it.body it.value) :
    ∀ e ∈ items.map Item.bytes, ∃ h' c', Framed 50 e h' c' := by
  intro e he
  obtain ⟨it, hit, rfl⟩ := List.mem_map.1 he
  exact ⟨_, _, (h it hit).1⟩

theorem contentFails_within {D : Deps} {d : Nat} {h : Header} {c : Bytes} {e : BerError}
    (hc : ContentFails D d h c e) (he : e ≠ .berMaxDepth) :
    ∀ x rest, Framed 50 x h c → ∃ r, Within (x ++ rest) r ∧ Culprit D r e := by
  induction hc with
  | depth => exact absurd rfl he
  | leaf _ h c e hu hl => exact fun x rest hF => ⟨_, .here _, .leaf x rest c h e hF hu hl⟩
  | frame _ h items q e hu ht hk hi _ hf =>
    intro x rest hF
    obtain ⟨r, h1, h2⟩ := frameFails_within hf he
    rw [items_bytes_flatten] at hF
    exact ⟨r, .list x rest h _ q r hF hu ht hk (items_framed hi) h1, .header r e h2⟩
  | cut _ h items q n hu ht hk hi hq hn =>
    intro x rest hF
    rw [items_bytes_flatten] at hF
    exact ⟨q, .list x rest h _ q q hF hu ht hk (items_framed hi) (.here q), .cut q n hq hn⟩
  | member _ h items y rest' c h' e hu ht hk hi hy _ ih =>
    intro x rest hF
    obtain ⟨r, h1, h2⟩ := ih he y rest' hy
    rw [items_bytes_flatten] at hF
    exact ⟨r, .list x rest h _ _ r hF hu ht hk (items_framed hi) h1, h2⟩

theorem leafFails_same {D : Deps} {h h' : Header} {c : Bytes} {e : BerError} (hl : LeafFails D h c e)
    (e2 : h'.constructed = h.constructed) (e3 : h'.tag = h.tag) (e4 : h'.length = h.length) : LeafFails D h' c e := by
  cases hl with
  | boolean a b => exact .boolean (e3 ▸ a) (e4 ▸ b)
  | bitStringEmpty a b => exact .bitStringEmpty (e3 ▸ a) b
  | bitStringConstructed a b k => exact .bitStringConstructed (e3 ▸ a) b (e2 ▸ k)
  | enumConstructed a k => exact .enumConstructed (e3 ▸ a) (e2 ▸ k)
  | enumLarge a k b => exact .enumLarge (e3 ▸ a) (e2 ▸ k) b
  | stringConstructed s a k => exact .stringConstructed s (e3 ▸ a) (e2 ▸ k)
  | stringCharset s a k b => exact .stringCharset s (e3 ▸ a) (e2 ▸ k) b
  | bmpConstructed a k => exact .bmpConstructed (e3 ▸ a) (e2 ▸ k)
  | bmpOdd a k b => exact .bmpOdd (e3 ▸ a) (e2 ▸ k) b
  | bmpCharset a k b b' => exact .bmpCharset (e3 ▸ a) (e2 ▸ k) b b'
  | universalConstructed a k => exact .universalConstructed (e3 ▸ a) (e2 ▸ k)
  | utcTime _ a b => exact .utcTime _ (e3 ▸ a) (e2 ▸ b)
  | generalizedTime _ a b => exact .generalizedTime _ (e3 ▸ a) (e2 ▸ b)
  | primitive a k => exact .primitive (e3 ▸ a) (e2 ▸ k)

theorem contentFails_same {D : Deps} {d : Nat} {h h' : Header} {c : Bytes} {e : BerError} (hc : ContentFails D d h c e)
    (e1 : h'.cls = h.cls) (e2 : h'.constructed = h.constructed) (e3 : h'.tag = h.tag) (e4 : h'.length = h.length) :
    ContentFails D d h' c e := by
  cases hc with
  | depth => exact .depth _ _
  | leaf d _ _ _ hu hl => exact .leaf d _ _ _ (e1 ▸ hu) (leafFails_same hl e2 e3 e4)
  | frame d _ items q _ hu ht hk hi hq hf => exact .frame d _ items q _ (e1 ▸ hu) (e3 ▸ ht) (e2 ▸ hk) hi hq hf
  | cut d _ items q n hu ht hk hi hq hn => exact .cut d _ items q n (e1 ▸ hu) (e3 ▸ ht) (e2 ▸ hk) hi hq hn
  | member d _ items x rest c h'' _ hu ht hk hi hF hf =>
    exact .member d _ items x rest c h'' _ (e1 ▸ hu) (e3 ▸ ht) (e2 ▸ hk) hi hF hf

/-- C120: every other code than `BerMaxDepth` (for which see C13 and C14) has its cause in one element, found in the
input by going through SEQUENCE, SET and indefinite lengths only. -/
theorem C120_culprit (D : Deps) (d : Nat) (i : Bytes) (e : BerError) (h : parseBerRecursive D d i = .err (.error e))
    (he : e ≠ .berMaxDepth) : ∃ q, Within i q ∧ Culprit D q e := by
  rw [C84_rejected_iff] at h
  cases h with
  | depth => exact absurd rfl he
  | frame _ _ _ h =>
    obtain ⟨r, h1, h2⟩ := frameFails_within h he
    exact ⟨r, h1, .header r e h2⟩
  | contents _ x rest c h e hF hc => exact contentFails_within hc he x rest hF

example := C120_culprit Tests.D0 50 [0x30, 0x04, 0x01, 0x02, 0xff, 0xff] .invalidLength rfl (by decide)

/-- C120: the same for `parse_der`, where the outermost element has the rules of its own. -/
theorem C120_der_culprit (D : Deps) (d : Nat) (i : Bytes) (e : BerError) (h : parseDerRecursive D d i = .err (.error e))
    (he : e ≠ .berMaxDepth) :
    (∃ q, Within i q ∧ Culprit D q e) ∨ HeaderFails derIndefinite i e ∨
    ∃ hb rest hd, i = hb ++ rest ∧ DerHeader hb hd ∧
      ((e = .invalidLength ∧ ∃ l, hd.length = .definite l ∧ 2 ^ 32 ≤ l) ∨
        (hd.cls = .universal ∧ ∃ c r, rest = c ++ r ∧ hd.length = .definite c.length ∧
          (RuleFails hd.tag hd.constructed c e ∨
            (hd.tag = 3 ∧ c = [] ∧ (e = .invalidValue 3 ∨ e = .invalidLength))))) := by
  rw [C85_rejected_iff] at h
  cases h with
  | header _ _ h => exact .inr (.inl h)
  | size hb rest hd l H hl hs => exact .inr (.inr ⟨hb, rest, hd, rfl, H, .inl ⟨rfl, l, hl, hs⟩⟩)
  | depth => exact absurd rfl he
  | contents hb c rest hd e H hl hs hu hf hne =>
    cases hf with
    | rule _ _ _ h => exact .inr (.inr ⟨hb, _, hd, rfl, H, .inr ⟨hu, c, rest, rfl, hl, .inl h⟩⟩)
    | emptyBitsUnused u r ht _ _ =>
      exact .inr (.inr ⟨hb, _, hd, rfl, H, .inr ⟨hu, [], _, rfl, hl, .inr ⟨ht, rfl, .inl rfl⟩⟩⟩)
    | emptyBits u r ht _ _ =>
      exact .inr (.inr ⟨hb, _, hd, rfl, H, .inr ⟨hu, [], _, rfl, hl, .inr ⟨ht, rfl, .inr rfl⟩⟩⟩)
    | size _ _ _ _ h => exact absurd h (by omega)
    | contents _ _ _ _ _ _ h =>
      refine .inl ?_
      have := contentFails_within (contentFails_same (h' := hd) h hu rfl rfl hl) he (hb ++ c) rest
        (.definite hb c hd H.toBerHeader hl)
      rwa [List.append_assoc] at this

example := C120_der_culprit Tests.D0 50 [0x01, 0x01, 0x05] _ rfl (by decide)

/-- C120, change log 7.0.0, "Keep `InvalidTag` for tags with invalid form": the cause of `InvalidTag` is a tag number of
more than five octets, or one that ends with the contents around it or the input. -/
theorem C120_invalid_tag (D : Deps) (d : Nat) (i : Bytes) (h : parseBerRecursive D d i = .err (.error .invalidTag))
    (hT : ¬ TimeError D .invalidTag) :
    ∃ b rest, Within i (b :: rest) ∧ b.toNat % 32 = 31 ∧ ∀ m ∈ rest.take 5, 128 ≤ m.toNat := by
  obtain ⟨q, h1, h2⟩ := C120_culprit D d i _ h (by simp)
  cases h2 with
  | header _ _ h =>
    generalize he : BerError.invalidTag = e at h
    cases h with
    | tag b rest hb hr => exact ⟨b, rest, h1, hb, hr⟩
    | reserved => simp at he
    | huge => simp at he
    | indefinite _ _ _ k _ _ _ _ hk =>
      subst he
      cases k <;> simp [berIndefinite] at hk
  | leaf _ _ _ _ _ _ _ h =>
    generalize he : BerError.invalidTag = e at h
    cases h with
    | utcTime _ _ h => subst he; exact absurd ⟨_, _, .inl h⟩ hT
    | generalizedTime _ _ h => subst he; exact absurd ⟨_, _, .inr h⟩ hT
    | _ => simp at he

/-- A SEQUENCE that ends within a tag number. -/
example := C120_invalid_tag Tests.D0 50 [0x30, 0x04, 0x05, 0x00, 0x1f, 0x85, 0x07] rfl
  (by rintro ⟨k, c, h | h⟩ <;> simp [Tests.D0] at h)

/-! ## C120: the change log -/

/-- C120, change log 5.0.0 and 6.0.0, "Ensure Indefinite length form is only used in BER constructed objects": no object
is returned that is primitive and of indefinite length, at any level. -/
theorem C120_indefinite_is_constructed (D : Deps) (i rem : Bytes) (o o' : BerObject) (h : Returned D i rem o)
    (hn : Node o' o) (hl : o'.header.length = .indefinite) : o'.header.constructed = true := by
  obtain ⟨_, _, _, _, _, hF, _⟩ := returned_node h hn
  cases hF with
  | definite _ _ _ H => exact H.indef_constructed hl
  | indefinite _ _ _ _ _ _ H => exact H.indef_constructed hl

example := C120_indefinite_is_constructed Tests.D0 [0x30, 0x80, 0x05, 0x00, 0, 0, 9] [9] _ _ (returned_ber rfl) .self rfl

/-- C120: nor is such a header handed to a closure. -/
theorem C120_indefinite_to_closure (R : Rules) (i rem c : Bytes) (h : Header) (hF : FramedBy R i rem h c)
    (hl : h.length = .indefinite) : R = .ber ∧ h.constructed = true := by
  cases R with
  | ber =>
    obtain ⟨_, _, hF⟩ := hF
    refine ⟨rfl, ?_⟩
    cases hF with
    | definite _ _ _ H => exact H.indef_constructed hl
    | indefinite _ _ _ _ _ _ H => exact H.indef_constructed hl
  | der =>
    obtain ⟨_, _, H, _⟩ := hF
    exact absurd hl H.definite

example := C120_indefinite_to_closure .ber [0x30, 0x80, 0x05, 0x00, 0, 0, 9] [9] _ _ ((frame_iff (E := BerError)).1 rfl) rfl

/-- C120, 6.0.0, "raise error if using Indefinite length and not constructed": the error is `ConstructExpected`. -/
theorem C120_indefinite_primitive {E O : Type} [ParseErr E] (D : Deps) (d tag n : Nat)
    (f : Bytes → Header → IRes E O) (id rest : Bytes) (cls : Class) (num : Nat) (hid : IdentOctets id cls false num)
    (h6 : id.length ≤ 6) :
    parseBerRecursive D (d + 1) (id ++ 0x80 :: rest) = .err (.error .constructExpected) ∧
    parseBerWithTag D tag (id ++ 0x80 :: rest) = .err (.error .constructExpected) ∧
    container .ber f (id ++ 0x80 :: rest) = .err (.error (ParseErr.ofBer .constructExpected)) ∧
    parseBerUint n (id ++ 0x80 :: rest) = .err (.error .constructExpected) ∧
    parseBerInt n (id ++ 0x80 :: rest) = .err (.error .constructExpected) := by
  have hH : HeaderFails berIndefinite (id ++ 0x80 :: rest) .constructExpected :=
    .indefinite id rest cls false num _ hid h6 rfl
  have hu := (C87_ber_unframed n (id ++ 0x80 :: rest)).2 _ (.header 50 _ _ hH)
  exact ⟨(C84_rejected_iff ..).2 (.frame d _ _ (.header 50 _ _ hH)), (C86_ber_rejected_iff ..).2 (.header _ _ hH),
    C88_unframed .ber f _ _ (.header _ _ hH), hu⟩

example := C120_indefinite_primitive Tests.D0 0 2 4 (fun i _ => (.ok ([], i) : IRes BerError Bytes)) [0x5f, 0x81, 0x01] [1, 2]
  .application 129 (.high 0x5f [0x81] 0x01 (by decide) (by simp) (by decide)) (by decide)

/-- C120, 6.0.0, "Do not attempt to parse PRIVATE object contents": elements of a class other than universal are
accepted whatever their contents octets are. -/
theorem C120_private (D : Deps) (d : Nat) (e c rest : Bytes) (h : Header) (hF : Framed 50 e h c)
    (hc : h.cls ≠ .universal) :
    parseBerRecursive D (d + 1) (e ++ rest) = .ok (rest, .mk h (.unknown ⟨h, c⟩)) ∧
    (h.length = .definite c.length → c.length < 2 ^ 32 →
      parseDerRecursive D (d + 1) (e ++ rest) = .ok (rest, .mk h (.unknown ⟨h, c⟩))) := by
  refine ⟨parseBerRecursive_iff.2 ⟨e, c, rfl, hF, .leaf _ _ _ _ ⟨rfl, .inl hc⟩⟩, fun hl hs => ?_⟩
  cases hF with
  | indefinite _ _ _ _ _ _ _ h => rw [h] at hl; simp at hl
  | definite hb _ _ H =>
    have hd : headerFromDer (hb ++ (c ++ rest)) = .ok (c ++ rest, h) :=
      headerFromDer_iff.2 ⟨hb, rfl, H, by rw [hl]; simp⟩
    unfold parseDerRecursive
    rw [List.append_assoc, hd, ok_bind]
    dsimp only
    rw [hl]
    dsimp only
    rw [if_neg (by simp only [maxObjectSize]; omega)]
    unfold derReadElementContentRecursive derUnknown
    rw [if_pos hc, getObjectContent_definite hl c rest rfl]
    rfl

/-- [1] with contents that are no element. -/
example := C120_private Tests.D0 0 [0x81, 0x02, 0x1f, 0xff] _ [9] _ (framed_read rfl) (by decide)

/-- C120, 7.0.0, "`ber_read_element_content_as` now requires a non-zero depth, or it will raise a `BerMaxDepth` error":
only a length above the limit or missing octets come before. -/
theorem C120_depth_zero (D : Deps) (i : Bytes) (tag : Nat) (L : Length) (k : Bool) :
    berReadElementContentAs D i tag L k 0 =
      match L with
      | .definite l =>
        if 2 ^ 32 ≤ l then .err (.error .invalidLength)
        else if i.length < l then .err (.incomplete (.size l))
        else .err (.error .berMaxDepth)
      | .indefinite => .err (.error .berMaxDepth) := by
  unfold berReadElementContentAs
  cases L with
  | indefinite => rfl
  | definite l =>
    dsimp only
    by_cases h1 : 2 ^ 32 ≤ l
    · rw [if_pos (by simp only [maxObjectSize]; omega), if_pos h1]
    · rw [if_neg (by simp only [maxObjectSize]; omega), if_neg h1]
      by_cases h2 : i.length < l
      · rw [if_pos h2, if_pos h2]
        unfold Needed.new
        rw [if_neg (by omega)]
      · rw [if_neg h2, if_neg h2]
        rfl

/-- C120, 7.0.0: "Parsing an indefinite length in DER now raises `IndefiniteLengthUnexpected`". -/
def C120Statement : Prop :=
  ∀ (D : Deps) (hb rest : Bytes) (h : Header), BerHeader hb h → h.length = .indefinite →
    parseDer D (hb ++ rest) = .err (.error .indefiniteLengthUnexpected)

/-- C120: this is false for every input: the error is `DerConstraintFailed(IndefiniteLength)`. -/
theorem C120_der_indefinite_counterexample (D : Deps) (d tag : Nat) (hb rest : Bytes) (h : Header) (H : BerHeader hb h)
    (hl : h.length = .indefinite) :
    parseDerRecursive D d (hb ++ rest) = .err (.error (.derConstraintFailed .indefiniteLength)) ∧
    parseDerWithTag D tag (hb ++ rest) = .err (.error (.derConstraintFailed .indefiniteLength)) :=
  C33_indefinite_refused D d tag hb rest h H hl

theorem C120_not_statement : ¬ C120Statement := fun h => by
  have := h Tests.D0 [0x30, 0x80] [] ⟨.universal, true, 16, .indefinite, some [0x30]⟩
    ⟨⟨[0x30], [0x80], 16, rfl, .low 0x30 (by decide), .indefinite, by decide, by decide, rfl⟩, by simp, fun _ => rfl⟩ rfl
  rw [show parseDer Tests.D0 ([0x30, 0x80] ++ []) = .err (.error (.derConstraintFailed .indefiniteLength)) from rfl] at this
  simp at this

/-- C120, what holds of it: the functions for contents answer so, given a header of indefinite length.  Missing: the
functions that read the header (see the counterexample). -/
theorem C120_der_indefinite_partial (D : Deps) (tag d : Nat) (h : Header) (i : Bytes) (hl : h.length = .indefinite) :
    parseDerContent D tag i h d = .err (.error .indefiniteLengthUnexpected) :=
  (C89_der_rejected_iff ..).2 (.inl ⟨hl, rfl⟩)

example := C120_der_indefinite_partial Tests.D0 4 50 ⟨.universal, true, 4, .indefinite, none⟩ [4, 1, 7, 0, 0] rfl

/-- C120, 7.0.0, "Store expected and found item in error": whatever the expected tag number, any other one that is
found is named, before the contents are looked at. -/
theorem C120_unexpected_tag (D : Deps) (tag : Nat) (hb rest : Bytes) (h : Header) (hne : h.tag ≠ tag) :
    (BerHeader hb h → parseBerWithTag D tag (hb ++ rest) = .err (.error (.unexpectedTag (some tag) h.tag))) ∧
    (DerHeader hb h → parseDerWithTag D tag (hb ++ rest) = .err (.error (.unexpectedTag (some tag) h.tag))) :=
  ⟨fun H => (C86_ber_rejected_iff ..).2 (.tag hb rest h H hne), fun H => (C86_der_rejected_iff ..).2 (.tag hb rest h H hne)⟩

example := (C120_unexpected_tag Tests.D0 1 [0x02, 0x01] [5] _ (by decide)).2 (derHeader_read rfl)

/-- C120, 5.0.0, "Integer parsing functions now all return `IntegerTooLarge`": for exactly the INTEGERs in primitive form
whose value does not fit. -/
theorem C120_integer_too_large (n : Nat) (hn : 1 ≤ n) (e rest c : Bytes) (h : Header) (hF : Framed 50 e h c)
    (ht : h.tag = 2) (hk : h.constructed = false) :
    (parseBerUint n (e ++ rest) = .err (.error .integerTooLarge) ↔ (2 ^ (8 * n) : Nat) ≤ twosComplement c) ∧
    (parseBerInt n (e ++ rest) = .err (.error .integerTooLarge) ↔
      ¬ (-(2 ^ (8 * n - 1) : Nat) ≤ twosComplement c ∧ twosComplement c < (2 ^ (8 * n - 1) : Nat))) := by
  rw [C87_ber_unsigned n hn e rest c h hF, C87_ber_signed n hn e rest c h hF]
  have h1 : (0 : Int) < (2 ^ (8 * n) : Nat) := by exact_mod_cast Nat.two_pow_pos _
  have h2 : (0 : Int) < (2 ^ (8 * n - 1) : Nat) := by exact_mod_cast Nat.two_pow_pos _
  constructor
  · simp only [ht, hk]
    generalize (2 ^ (8 * n) : Nat) = A at *
    simp only [ne_eq, not_true, if_false, Bool.false_eq_true]
    split
    · simp; omega
    · split <;> simp <;> omega
  · simp only [ht, hk]
    generalize (2 ^ (8 * n - 1) : Nat) = A at *
    simp only [ne_eq, not_true, if_false, Bool.false_eq_true]
    split <;> simp <;> omega

/-! ## Examples -/

/-- A SEQUENCE of NULL and of a tag number that is cut by the end of the SEQUENCE. -/
example : parseBer Tests.D0 [0x30, 0x04, 0x05, 0x00, 0x1f, 0x85, 0x07] = .err (.error .invalidTag) := rfl
example : Within [0x30, 0x04, 0x05, 0x00, 0x1f, 0x85, 0x07] [0x1f, 0x85] := by
  have H : ∀ (a l : UInt8) (n : Nat), a.toNat % 32 ≠ 31 → l.toNat < 128 → n = l.toNat →
      BerHeader [a, l] ⟨classOf a, constructedBit a, a.toNat % 32, .definite n, some [a]⟩ := by
    rintro a l n ha hl rfl
    refine ⟨⟨[a], [l], _, rfl, .low a ha, .short l hl, ?_, by simp, rfl⟩, ?_, by simp⟩
    · show a.toNat % 32 = a.toNat % 32 % 2 ^ 32
      have := a.toNat_lt
      omega
    · intro n hn
      simp only [Length.definite.injEq] at hn
      omega
  exact .list [0x30, 0x04, 0x05, 0x00, 0x1f, 0x85] [0x07] _ [[0x05, 0x00]] [0x1f, 0x85] _
    (.definite [0x30, 0x04] [0x05, 0x00, 0x1f, 0x85] _ (H 0x30 0x04 _ (by decide) (by decide) rfl) rfl) rfl (.inl rfl) rfl
    (by
      intro e he
      simp only [List.mem_singleton] at he
      subst he
      exact ⟨_, _, .definite [0x05, 0x00] [] _ (H 0x05 0x00 _ (by decide) (by decide) rfl) rfl⟩)
    (.here _)
example : ¬ TimeError Tests.D0 .invalidTag := by
  rintro ⟨k, c, h | h⟩ <;> simp [Tests.D0] at h
example : container (E := BerError) .der (fun i h => if h.tag = 4 then .ok ([], i) else .err (.error .berTypeError))
    [0x02, 0x01, 0x05] = .err (.error .berTypeError) := rfl
example : IdentOctets [0x5f, 0x81, 0x01] .application false 129 := .high 0x5f [0x81] 0x01 (by decide) (by simp) (by decide)
example : parseDerContent Tests.D0 4 [0x00, 0x00] ⟨.universal, true, 4, .indefinite, none⟩ 50 =
    .err (.error .indefiniteLengthUnexpected) := rfl
example : parseBerInt 1 [0x02, 0x02, 0xff, 0xff] = .ok ([], -1) ∧ twosComplement [0xff, 0xff] = -1 := ⟨rfl, by decide⟩
example : parseBerInt 1 [0x02, 0x02, 0xff, 0x7f] = .err (.error .integerTooLarge) ∧
    twosComplement [0xff, 0x7f] = -129 := ⟨rfl, by decide⟩
example : parseBer Tests.D0 [0xc1, 0x02, 0x1f, 0xff] =
    .ok ([], .mk ⟨.priv, false, 1, .definite 2, some [0xc1]⟩
      (.unknown ⟨⟨.priv, false, 1, .definite 2, some [0xc1]⟩, [0x1f, 0xff]⟩)) := rfl

end Verif
