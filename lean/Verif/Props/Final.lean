import Verif.Props.Fail
import Verif.Props.FailTyped
/-!
# Property C105: an error is final

A reader that fetches input piece by piece gives up when a parser answers `Err::Error`.  It is right to do
so if no continuation of the input would have been answered otherwise.
-/
namespace Verif
open Outcome Spec

namespace Spec

/-- The input ends inside a tag number: after the first octet of a tag number in the long form come at most
four octets and each has its top bit set.  Here the tag is that of the element itself or of an element inside
an indefinite length (after any number of complete ones). -/
inductive EndsInTag : Nat → Bytes → Prop
  | here (n : Nat) (b : UInt8) (ms : Bytes) : b.toNat % 32 = 31 → (∀ m ∈ ms, 128 ≤ m.toNat) →
      ms.length ≤ 4 → EndsInTag n (b :: ms)
  | inside (n : Nat) (hb : Bytes) (es : List Bytes) (q : Bytes) (h : Header) : BerHeader hb h →
      h.length = .indefinite → (∀ x ∈ es, Element LooseEoc LooseEoc n x) → EndsInTag n q →
      EndsInTag (n + 1) (hb ++ (es.flatten ++ q))

end Spec

theorem headerFails_extend {R : Bool → Option BerError} {q : Bytes} {e : BerError} (h : HeaderFails R q e)
    (n : Nat) (hn : ¬ EndsInTag n q) (t : Bytes) : HeaderFails R (q ++ t) e := by
  cases h with
  | tag b rest hb hm =>
    by_cases hl : rest.length ≤ 4
    · exact (hn (.here n b rest hb (by rwa [List.take_of_length_le (by omega)] at hm) hl)).elim
    · refine .tag b (rest ++ t) hb ?_
      rwa [List.take_append_of_le_length (by omega)]
  | reserved id rest cls k num hi hl =>
    rw [List.append_assoc]
    exact .reserved id (rest ++ t) cls k num hi hl
  | huge id ds rest cls k num b hi hl h1 h2 h3 h4 =>
    have : id ++ b :: (ds ++ rest) ++ t = id ++ b :: (ds ++ (rest ++ t)) := by simp
    rw [this]
    exact .huge id ds (rest ++ t) cls k num b hi hl h1 h2 h3 h4
  | indefinite id rest cls k num e hi hl he =>
    rw [List.append_assoc]
    exact .indefinite id (rest ++ t) cls k num e hi hl he

theorem frameFails_extend {n : Nat} {q : Bytes} {e : BerError} (h : FrameFails n q e) (hn : ¬ EndsInTag n q)
    (t : Bytes) : FrameFails n (q ++ t) e := by
  induction h with
  | header n q e h => exact .header n _ e (headerFails_extend h n hn t)
  | depth hb rest h H => rw [List.append_assoc]; exact .depth hb _ h H
  | inside n hb es q h e H hl hes _ ih =>
    have : hb ++ (es.flatten ++ q) ++ t = hb ++ (es.flatten ++ (q ++ t)) := by simp
    rw [this]
    exact .inside n hb es (q ++ t) h e H hl hes (ih fun hx => hn (.inside n hb es q h H hl hes hx))

theorem derFails_extend {D : Deps} {d tag : Nat} {k : Bool} {c rest : Bytes} {e : BerError}
    (h : DerFails D d tag k c rest e) (t : Bytes) : DerFails D d tag k c (rest ++ t) e := by
  cases h with
  | rule c rest e h => exact .rule c _ e h
  | emptyBitsUnused u rest h1 h2 h3 => exact .emptyBitsUnused u _ h1 h2 h3
  | emptyBits u rest h1 h2 h3 => exact .emptyBits u _ h1 h2 h3
  | size c rest h1 h2 h3 => exact .size c _ h1 h2 h3
  | contents c rest e h1 h2 h3 h4 => exact .contents c _ e h1 h2 h3 h4

/-! ## C105 -/

/-- C105, BER: an error stays the answer, the same error, however the input goes on, unless the input ends
inside a tag number. -/
theorem C105_ber_partial (D : Deps) (d : Nat) (i t : Bytes) (e : BerError)
    (h : parseBerRecursive D d i = .err (.error e)) (hn : ¬ EndsInTag 50 i) :
    parseBerRecursive D d (i ++ t) = .err (.error e) := by
  rw [C84_rejected_iff] at h ⊢
  cases h with
  | depth => exact .depth _
  | frame d _ _ h => exact .frame d _ _ (frameFails_extend h hn t)
  | contents d x rest c h' _ hF h => rw [List.append_assoc]; exact .contents d x _ c h' _ hF h

/-- A BOOLEAN of two octets does not end in a tag number. -/
theorem not_endsInTag_small (n : Nat) : ¬ EndsInTag n [0x01, 0x02, 0xff, 0xff] := fun h => by
  generalize hq : ([0x01, 0x02, 0xff, 0xff] : Bytes) = q at h
  cases h with
  | here _ b ms hb _ _ => cases hq; exact absurd hb (by decide)
  | inside n hb es q h H hl _ _ =>
    have h1 := headerFromBer_iff.2 ⟨hb, hq, H⟩
    rw [show headerFromBer [0x01, 0x02, 0xff, 0xff] = .ok ([0xff, 0xff], Tests.h .universal false 1 2 [1]) from rfl] at h1
    simp only [Outcome.ok.injEq, Prod.mk.injEq] at h1
    rw [← h1.2] at hl
    cases hl

/-- C105, DER: an error stays the answer unless the input ends inside the tag number. -/
theorem C105_der_partial (D : Deps) (d : Nat) (i t : Bytes) (e : BerError)
    (h : parseDerRecursive D d i = .err (.error e)) (hn : ¬ EndsInTag 0 i) :
    parseDerRecursive D d (i ++ t) = .err (.error e) := by
  rw [C85_rejected_iff] at h ⊢
  cases h with
  | header _ _ h => exact .header _ _ (headerFails_extend h 0 hn t)
  | size hb rest h l h1 h2 h3 => rw [List.append_assoc]; exact .size hb _ h l h1 h2 h3
  | depth hb rest h l h1 h2 h3 h4 h5 => rw [List.append_assoc]; exact .depth hb _ h l h1 h2 h3 h4 h5
  | contents hb c rest h _ h1 h2 h3 h4 h5 h6 =>
    have : hb ++ (c ++ rest) ++ t = hb ++ (c ++ (rest ++ t)) := by simp
    rw [this]
    exact .contents hb c _ h _ h1 h2 h3 h4 (derFails_extend h5 t) h6

example := C105_der_partial Tests.D0 50 [0x01, 0x02, 0xff, 0xff] [9] _ rfl (not_endsInTag_small _)

/-- C105 for the BER functions for one type. -/
theorem C105_ber_typed_partial (D : Deps) (tag : Nat) (i t : Bytes) (e : BerError)
    (h : parseBerWithTag D tag i = .err (.error e)) (hn : ¬ EndsInTag 50 i) :
    parseBerWithTag D tag (i ++ t) = .err (.error e) := by
  rw [C86_ber_rejected_iff] at h ⊢
  cases h with
  | header _ _ h => exact .header _ _ (headerFails_extend h 50 hn t)
  | tag hb rest h H ht => rw [List.append_assoc]; exact .tag hb _ h H ht
  | size hb rest h l H ht hl hs => rw [List.append_assoc]; exact .size hb _ h l H ht hl hs
  | frame hb rest h _ H ht hl hf =>
    have := frameFails_extend hf hn t
    rw [List.append_assoc] at this ⊢
    exact .frame hb _ h _ H ht hl this
  | contents x rest c h _ hF ht hs hc => rw [List.append_assoc]; exact .contents x _ c h _ hF ht hs hc

example := C105_ber_typed_partial Tests.D0 1 [0x01, 0x02, 0xff, 0xff] [9] _ rfl (not_endsInTag_small _)

/-- C105 for the DER functions for one type. -/
theorem C105_der_typed_partial (D : Deps) (tag : Nat) (i t : Bytes) (e : BerError)
    (h : parseDerWithTag D tag i = .err (.error e)) (hn : ¬ EndsInTag 0 i) :
    parseDerWithTag D tag (i ++ t) = .err (.error e) := by
  rw [C86_der_rejected_iff] at h ⊢
  cases h with
  | header _ _ h => exact .header _ _ (headerFails_extend h 0 hn t)
  | tag hb rest h H ht => rw [List.append_assoc]; exact .tag hb _ h H ht
  | contents hb c rest h _ H ht hl hc =>
    have : hb ++ (c ++ rest) ++ t = hb ++ (c ++ (rest ++ t)) := by simp
    rw [this]
    exact .contents hb c _ h _ H ht hl (derFails_extend hc t)

example := C105_der_typed_partial Tests.D0 1 [0x01, 0x02, 0xff, 0xff] [9] _ rfl (not_endsInTag_small _)

/-- What is rejected and accepted later was cut inside a tag number and is a proper prefix of an element; and
then the error was `InvalidTag`. -/
theorem C105_accepted_later (D : Deps) (d : Nat) (i t rem : Bytes) (e : BerError) (o : BerObject)
    (h : parseBerRecursive D d i = .err (.error e)) (ho : parseBerRecursive D d (i ++ t) = .ok (rem, o)) :
    e = .invalidTag ∧ EndsInTag 50 i ∧ rem.length < t.length := by
  have hcut : EndsInTag 50 i := Classical.byContradiction fun hn => by
    rw [C105_ber_partial D d i t e h hn] at ho; cases ho
  refine ⟨?_, hcut, ?_⟩
  · have hc : Cut false 50 i .badTag := by
      clear h ho
      generalize 50 = n at hcut
      induction hcut with
      | here n b ms h1 h2 h3 => exact .header n _ _ (by simp) (.tag b ms h1 h2 (by simp))
      | inside n hb es q h H hl hes _ ih => exact .inside n hb es q h _ H hl hes ih
    cases d with
    | zero => rw [(C84_rejected_iff D 0 (i ++ t) _).2 (.depth _)] at ho; cases ho
    | succ d =>
      rw [C81_cut_answer D d i _ hc] at h
      simpa [CutAnswer.toErr] using h.symm
  · refine Classical.byContradiction fun hlt => ?_
    obtain ⟨x, c, hx, hF, hd⟩ := parseBerRecursive_iff.1 ho
    have hp : ∃ r, i = x ++ r := by
      have hl := congrArg List.length hx
      simp only [List.length_append] at hl
      refine ⟨i.drop x.length, ?_⟩
      have := congrArg (List.take x.length) hx
      rw [List.take_append_of_le_length (by omega), List.take_append_of_le_length (by omega),
        List.take_length] at this
      conv => lhs; rw [← List.take_append_drop x.length i, this]
    obtain ⟨r, rfl⟩ := hp
    rw [(parseBerRecursive_iff (rem := r)).2 ⟨x, c, rfl, hF, hd⟩] at h
    cases h

/-- A private element whose tag number is cut. -/
example := C105_accepted_later Tests.D0 50 [0xdf, 0x81] [0x01, 0x00, 9] [9] _ _ rfl rfl

/-- The full C105 is false: the first octet of a tag number above 30 is rejected, and accepted with the octets
that follow; for BER and for DER. -/
theorem C105_counterexample (D : Deps) (d : Nat) :
    parseBerRecursive D (d + 1) [0x9f] = .err (.error .invalidTag) ∧
      parseBerRecursive D (d + 1) ([0x9f] ++ [0x21, 0x00]) =
        .ok ([], ⟨⟨.contextSpecific, false, 33, .definite 0, some [0x9f, 0x21]⟩,
          .unknown ⟨⟨.contextSpecific, false, 33, .definite 0, some [0x9f, 0x21]⟩, []⟩⟩) ∧
      parseDerRecursive D (d + 1) [0x9f] = .err (.error .invalidTag) ∧
      parseDerRecursive D (d + 1) ([0x9f] ++ [0x21, 0x00]) =
        .ok ([], ⟨⟨.contextSpecific, false, 33, .definite 0, some [0x9f, 0x21]⟩,
          .unknown ⟨⟨.contextSpecific, false, 33, .definite 0, some [0x9f, 0x21]⟩, []⟩⟩) :=
  ⟨rfl, rfl, rfl, rfl⟩

/-- Five subsequent octets with the top bit set do not fit a tag number, and the hypothesis of C105 holds. -/
example (D : Deps) (t : Bytes) :
    parseBerRecursive D 50 ([0x9f, 0x81, 0x81, 0x81, 0x81, 0x81] ++ t) = .err (.error .invalidTag) :=
  C105_ber_partial D 50 _ t _ rfl fun h => by
    generalize hq : ([0x9f, 0x81, 0x81, 0x81, 0x81, 0x81] : Bytes) = q at h
    cases h with
    | here _ b ms _ _ hl => cases hq; exact absurd hl (by decide)
    | inside n hb es q h H hl _ _ =>
      have h1 := headerFromBer_iff.2 ⟨hb, hq, H⟩
      rw [show headerFromBer [0x9f, 0x81, 0x81, 0x81, 0x81, 0x81] = .err (.error .invalidTag) from rfl] at h1
      cases h1

end Verif
