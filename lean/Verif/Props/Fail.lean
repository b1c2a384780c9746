import Verif.Lemmas.DerFail
import Verif.Lemmas.Returned
import Verif.Props.Total
import Verif.Props.Cuts
/-!
# Properties C84–C85: the error of every rejected input
-/
namespace Verif
open Outcome Spec

/-! ## C84 -/

/-- `Err::Error(e)` is the answer to the inputs specified to be rejected with `e` and to no other. -/
theorem C84_rejected_iff (D : Deps) (d : Nat) (i : Bytes) (e : BerError) :
    parseBerRecursive D d i = .err (.error e) ↔ Rejected D d i e := by
  unfold parseBerRecursive parseBerAnyR
  cases d with
  | zero =>
    simp only [if_true, err.injEq, NomErr.error.injEq]
    constructor
    · rintro rfl; exact .depth i
    · intro h; cases h; rfl
  | succ d =>
    rw [if_neg (by omega)]
    constructor
    · intro h
      rcases bind_eq_err.1 h with h1 | ⟨⟨rest, h', c⟩, h1, h2⟩
      · exact .frame d i e (anyFromBer_error.1 h1)
      · obtain ⟨x, rfl, hF⟩ := anyFromBer_framed.1 h1
        rcases bind_eq_err.1 h2 with h3 | ⟨o, _, h3⟩
        · refine .contents d x rest c h' e hF ((objectFromAny_err D _ _ _ _).1 ?_)
          dsimp only at h3
          revert h3
          cases objectFromAny D (d + 1) ⟨h', c⟩ <;> simp [liftRes]
        · simp at h3
    · intro h
      cases h with
      | frame _ _ _ h => rw [anyFromBer_error.2 h]; rfl
      | contents _ x rest c h' _ hF h =>
        rw [(anyFromBer_framed (rem := rest) (a := ⟨h', c⟩)).2 ⟨x, rfl, hF⟩, ok_bind,
          (objectFromAny_err D _ _ _ _).2 h]
        rfl

/-- `Err::Failure` and `Incomplete(Unknown)` are never answered. -/
theorem C84_answers (D : Deps) (d : Nat) (i : Bytes) (x : NomErr BerError)
    (h : parseBerRecursive D d i = .err x) :
    (∃ n, x = .incomplete (.size n)) ∨ ∃ e, x = .error e := by
  unfold parseBerRecursive parseBerAnyR at h
  split at h
  · simp only [err.injEq] at h; exact .inr ⟨_, h.symm⟩
  · rcases bind_eq_err.1 h with h1 | ⟨r, h1, h2⟩
    · rcases anyFromBer_err_cases h1 with ⟨m, h, _⟩ | ⟨e, h, _⟩
      · exact .inl ⟨m, h⟩
      · exact .inr ⟨e, h⟩
    · rcases bind_eq_err.1 h2 with h3 | ⟨o, _, h3⟩
      · refine .inr ?_
        revert h3
        cases objectFromAny D d r.2 <;> simp [liftRes]
        exact fun h => ⟨_, h.symm⟩
      · simp at h3

example := C84_answers Tests.D0 50 [0x30, 0x04, 0x01, 0x02, 0xff, 0xff] _ rfl

/-- Every input is accepted, incomplete or rejected. -/
theorem C84_complete (D : Deps) (d : Nat) (i : Bytes) :
    (∃ e rest h c x, i = e ++ rest ∧ Framed 50 e h c ∧ Denotes D (d + 1) h c x) ∨
      (∃ n, Cut false 50 i (.need n)) ∨ ∃ e, Rejected D (d + 1) i e := by
  cases h : parseBerRecursive D (d + 1) i with
  | ok r =>
    obtain ⟨rest, o⟩ := r
    obtain ⟨e, c, h1, h2, h3⟩ := parseBerRecursive_iff.1 h
    exact .inl ⟨e, rest, _, c, _, h1, h2, h3⟩
  | err x =>
    rcases C84_answers D _ i x h with ⟨n, rfl⟩ | ⟨e, rfl⟩
    · exact .inr (.inl ⟨n, (C81_incomplete_iff D d i n).1 h⟩)
    · exact .inr (.inr ⟨e, (C84_rejected_iff D _ i e).1 h⟩)
  | panic => have := C01_parse_ber_recursive_total D (d + 1) i; rw [h] at this; exact absurd this (by simp [Outcome.Returns])
  | diverge => have := C01_parse_ber_recursive_total D (d + 1) i; rw [h] at this; exact absurd this (by simp [Outcome.Returns])

/-- The three cases exclude each other, and each determines the answer. -/
theorem C84_exclusive (D : Deps) (d : Nat) (i : Bytes) :
    (∀ e rest h c x, i = e ++ rest → Framed 50 e h c → Denotes D (d + 1) h c x →
      (∀ n, ¬ Cut false 50 i (.need n)) ∧ ∀ e', ¬ Rejected D (d + 1) i e') ∧
    (∀ n, Cut false 50 i (.need n) →
      (∀ n', Cut false 50 i (.need n') → n' = n) ∧ ∀ e', ¬ Rejected D (d + 1) i e') ∧
    ∀ e e', Rejected D (d + 1) i e → Rejected D (d + 1) i e' → e' = e := by
  refine ⟨fun e rest h c x he hF hd => ?_, fun n hn => ?_, fun e e' h h' => ?_⟩
  · have hok := (parseBerRecursive_iff (D := D) (o := .mk h x)).2 ⟨e, c, he, hF, hd⟩
    refine ⟨fun n hn => ?_, fun e' he' => ?_⟩
    · rw [(C81_incomplete_iff D d i n).2 hn] at hok; simp at hok
    · rw [(C84_rejected_iff D _ i e').2 he'] at hok; simp at hok
  · have h1 := (C81_incomplete_iff D d i n).2 hn
    refine ⟨fun n' hn' => ?_, fun e' he' => ?_⟩
    · rw [(C81_incomplete_iff D d i n').2 hn'] at h1; simpa using h1
    · rw [(C84_rejected_iff D _ i e').2 he'] at h1; simp at h1
  · have h1 := (C84_rejected_iff D _ i e).2 h
    rw [(C84_rejected_iff D _ i e').2 h'] at h1
    simpa using h1

example := (C84_exclusive Tests.D0 49 [0x02, 0x03, 0x01]).2.1 2 (.contents 49 3 [0x02, 0x03] [0x01] _ (berHeader_read rfl) rfl (by decide))
example := (C84_exclusive Tests.D0 49 [0x05, 0x00, 9]).1 [0x05, 0x00] [9] _ _ .null rfl (framed_read rfl)
  (.leaf _ _ _ _ ⟨rfl, rfl⟩)

/-- A member cut by the end of its SEQUENCE makes the whole input invalid.  The error code is
`Error::Incomplete`, but it is not the `nom::Err::Incomplete` that asks for more input. -/
theorem C84_member_cut (D : Deps) (d : Nat) (h : Header) (items : List Item) (x q rest : Bytes) (n : Nat)
    (hF : Framed 50 x h (items.flatMap Item.bytes ++ q)) (hu : h.cls = .universal)
    (ht : h.tag = 16 ∨ h.tag = 17) (hc : h.constructed = true)
    (hi : ∀ it ∈ items, Framed 50 it.bytes it.header it.body ∧ Denotes D d it.header it.body it.value)
    (hq : q ≠ []) (hn : Cut false 50 q (.need n)) :
    parseBerRecursive D (d + 1) (x ++ rest) = .err (.error (.incomplete (.size n))) :=
  (C84_rejected_iff D _ _ _).2 (.contents d x rest _ h _ hF (.cut d h items q n hu ht hc hi hq hn))

/-- SEQUENCE { NULL, INTEGER of three octets cut after one }. -/
example := C84_member_cut Tests.D0 49 (Tests.h .universal true 16 5 [0x30]) [⟨[0x05, 0x00], Tests.h .universal false 5 0 [5], [], .null⟩]
  [0x30, 0x05, 0x05, 0x00, 0x02, 0x03, 0x01] [0x02, 0x03, 0x01] [9] 2 (framed_read rfl) rfl (.inl rfl) rfl
  (by
    simp only [List.forall_mem_cons, List.not_mem_nil, false_imp_iff, implies_true, and_true]
    exact ⟨framed_read rfl, .leaf _ _ _ _ ⟨rfl, rfl⟩⟩)
  (by simp) (.contents 49 3 [0x02, 0x03] [0x01] _ (berHeader_read rfl) rfl (by decide))

/-! ## C85 -/

/-- What `parse_der` answers, as a table over the header. -/
theorem parseDerRecursive_err (D : Deps) (d : Nat) (i : Bytes) (x : NomErr BerError) :
    parseDerRecursive D d i = .err x ↔
      (∃ n, x = .incomplete (.size n) ∧ DerNeeds d i n) ∨ ∃ e, x = .error e ∧ DerRejected D d i e := by
  have hmax : ∀ l, maxObjectSize < l ↔ 2 ^ 32 ≤ l := by intro l; unfold maxObjectSize; omega
  constructor
  · intro h
    unfold parseDerRecursive at h
    rcases bind_eq_err.1 h with h1 | ⟨⟨i1, hd⟩, h1, h2⟩
    · rcases headerFromDer_err h1 with ⟨n, rfl⟩ | ⟨e, rfl⟩
      · exact .inl ⟨n, rfl, .header i n (headerFromDer_incomplete.1 h1)⟩
      · exact .inr ⟨e, rfl, .header i e (headerFromDer_error.1 h1)⟩
    · obtain ⟨hb, rfl, H⟩ := headerFromDer_iff.1 h1
      dsimp only at h2
      cases hl : hd.length with
      | indefinite => exact absurd hl H.definite
      | definite l =>
        rw [hl] at h2
        simp only [hmax] at h2
        split at h2
        · rename_i hs
          simp only [err.injEq] at h2
          exact .inr ⟨_, h2.symm, .size hb i1 hd l H hl hs⟩
        · rename_i hs
          unfold derReadElementContentRecursive at h2
          split at h2
          · rename_i hcls
            rcases derUnknown_answer d l i1 hd hl with ⟨h0, h3⟩ | ⟨h0, h3, h4⟩ | ⟨_, _, r, h3⟩
            · rw [h3] at h2
              simp only [err.injEq] at h2
              exact .inr ⟨_, h2.symm, .depth hb i1 hd l H hl (by omega) hcls h0⟩
            · rw [h4] at h2
              simp only [err.injEq] at h2
              exact .inl ⟨_, h2.symm, .foreign hb i1 hd l H hl (by omega) hcls h0 h3⟩
            · rw [h3] at h2
              simp at h2
          · rename_i hcls
            have hcls : hd.cls = .universal := by simpa using hcls
            by_cases hlt : i1.length < l
            · rw [hl, derReadElementContentAs_short hlt] at h2
              simp only [err.injEq] at h2
              exact .inl ⟨_, h2.symm, .universal hb i1 hd l H hl (by omega) hcls hlt⟩
            · obtain ⟨c, rest, rfl, hc⟩ : ∃ c rest, i1 = c ++ rest ∧ c.length = l :=
                ⟨i1.take l, i1.drop l, by simp, by simp; omega⟩
              subst hc
              rw [hl] at h2
              split at h2
              · simp at h2
              · rename_i t hx
                rcases derUnknown_answer d c.length (c ++ rest) hd hl with ⟨h0, _⟩ | ⟨_, h3, _⟩ | ⟨_, _, r, h3⟩
                · exfalso
                  subst h0
                  rcases derReadElementContentAs_err.1 hx with ⟨_, _, _, _, h⟩ | ⟨e, h, hf⟩
                  · simp at h
                  · simp only [NomErr.error.injEq] at h
                    subst h
                    cases hf with
                    | rule _ _ _ hr => cases hr
                    | contents _ _ _ _ _ _ hc => cases hc
                · simp only [List.length_append] at h3; omega
                · rw [h3] at h2
                  simp at h2
              · rename_i y hny hx
                simp only [err.injEq] at h2
                subst h2
                rcases derReadElementContentAs_err.1 hx with ⟨g1, g2, rfl, rfl, rfl⟩ | ⟨e, rfl, hf⟩
                · refine .inl ⟨1, rfl, ?_⟩
                  rw [List.append_nil, List.append_nil]
                  exact .emptyBits hb hd H hl hcls g1 g2
                · exact .inr ⟨e, rfl, .contents hb c rest hd e H hl (by omega) hcls hf
                    (fun t ht => hny t (by rw [ht]))⟩
              · simp at h2
              · simp at h2
  · rintro (⟨n, rfl, h⟩ | ⟨e, rfl, h⟩)
    · unfold parseDerRecursive
      cases h with
      | header _ _ h => rw [headerFromDer_incomplete.2 h]; rfl
      | foreign hb c h l H hl hs hcls hd hlt =>
        rw [derHeader_reads H]
        simp only [ok_bind, hl, hmax]
        rw [if_neg (by omega)]
        unfold derReadElementContentRecursive
        rw [if_pos hcls]
        rcases derUnknown_answer d l c h hl with ⟨h0, _⟩ | ⟨_, _, h4⟩ | ⟨_, h3, _⟩
        · omega
        · exact h4
        · omega
      | universal hb c h _ H hl hs hcls hlt =>
        rw [derHeader_reads H]
        simp only [ok_bind, hl, hmax]
        rw [if_neg (by omega)]
        unfold derReadElementContentRecursive
        rw [if_neg (by simpa using hcls), hl, derReadElementContentAs_short hlt]
      | emptyBits _ h H hl hcls ht hk =>
        have := derHeader_reads H []
        rw [List.append_nil] at this
        rw [this]
        simp only [ok_bind, hl, hmax]
        rw [if_neg (by omega)]
        unfold derReadElementContentRecursive
        rw [if_neg (by simpa using hcls), hl]
        have := (derReadElementContentAs_err (D := D) (d := d) (c := []) (rest := [])
          (x := .incomplete (.size 1))).2 (.inl ⟨ht, hk, rfl, rfl, rfl⟩)
        simp only [List.append_nil, List.length_nil] at this
        rw [this]
    · unfold parseDerRecursive
      cases h with
      | header _ _ h => rw [headerFromDer_error.2 h]; rfl
      | size hb rest h l H hl hs =>
        rw [derHeader_reads H]
        simp only [ok_bind, hl, hmax]
        rw [if_pos hs]
      | depth hb rest h l H hl hs hcls hd =>
        rw [derHeader_reads H]
        simp only [ok_bind, hl, hmax]
        rw [if_neg (by omega)]
        unfold derReadElementContentRecursive
        rw [if_pos hcls]
        subst hd
        rfl
      | contents hb c rest h _ H hl hs hcls hf hu =>
        rw [derHeader_reads H]
        simp only [ok_bind, hl, hmax]
        rw [if_neg (by omega)]
        unfold derReadElementContentRecursive
        rw [if_neg (by simpa using hcls), hl, derReadElementContentAs_err.2 (.inr ⟨e, rfl, hf⟩)]
        cases e <;> first | rfl | exact absurd rfl (hu _)

/-- `Err::Error(e)` is the answer of `parse_der` to the inputs specified to be rejected with `e` and to no
other. -/
theorem C85_rejected_iff (D : Deps) (d : Nat) (i : Bytes) (e : BerError) :
    parseDerRecursive D d i = .err (.error e) ↔ DerRejected D d i e := by
  rw [parseDerRecursive_err]
  simp

/-- `Incomplete(n)` is the answer of `parse_der` to the inputs specified so and to no other. -/
theorem C85_incomplete_iff (D : Deps) (d : Nat) (i : Bytes) (n : Nat) :
    parseDerRecursive D d i = .err (.incomplete (.size n)) ↔ DerNeeds d i n := by
  rw [parseDerRecursive_err]
  simp

/-- `Err::Failure` and `Incomplete(Unknown)` are never answered. -/
theorem C85_answers (D : Deps) (d : Nat) (i : Bytes) (x : NomErr BerError)
    (h : parseDerRecursive D d i = .err x) :
    (∃ n, x = .incomplete (.size n)) ∨ ∃ e, x = .error e := by
  rcases (parseDerRecursive_err D d i x).1 h with ⟨n, h, _⟩ | ⟨e, h, _⟩
  · exact .inl ⟨n, h⟩
  · exact .inr ⟨e, h⟩

example := C85_answers Tests.D0 50 [0x01, 0x01, 0x05] _ rfl

/-- Every input is accepted, incomplete or rejected, and only one of these. -/
theorem C85_complete (D : Deps) (hT : TimesKnown D) (d : Nat) (i : Bytes) :
    let Acc : Prop := ∃ hb c rest h x, i = hb ++ c ++ rest ∧ DerHeader hb h ∧ h.length = .definite c.length ∧
      c.length < 2 ^ 32 ∧ ((h.cls ≠ .universal ∧ x = .unknown ⟨h, c⟩) ∨ (h.cls = .universal ∧ DerRules h.tag c ∧
        Denotes D (d + 1) (Header.new .universal h.constructed h.tag h.length) c x))
    (Acc ∨ (∃ n, DerNeeds (d + 1) i n) ∨ ∃ e, DerRejected D (d + 1) i e) ∧
      (Acc → ∀ n, ¬ DerNeeds (d + 1) i n) ∧ (Acc → ∀ e, ¬ DerRejected D (d + 1) i e) ∧
      ∀ n e, DerNeeds (d + 1) i n → ¬ DerRejected D (d + 1) i e := by
  intro Acc
  have hmax : ∀ l, l ≤ maxObjectSize ↔ l < 2 ^ 32 := by intro l; unfold maxObjectSize; omega
  have hA : Acc ↔ ∃ r, parseDerRecursive D (d + 1) i = .ok r := by
    constructor
    · rintro ⟨hb, c, rest, h, x, h1, h2, h3, h4, h5⟩
      exact ⟨(rest, .mk h x), (parseDerRecursive_iff hT).2 ⟨hb, c, h1, h2, h3, (hmax _).2 h4, h5⟩⟩
    · rintro ⟨⟨rest, o⟩, h⟩
      obtain ⟨hb, c, h1, h2, h3, h4, h5⟩ := (parseDerRecursive_iff hT).1 h
      exact ⟨hb, c, rest, _, _, h1, h2, h3, (hmax _).1 h4, h5⟩
  rw [hA]
  refine ⟨?_, ?_, ?_, ?_⟩
  · cases h : parseDerRecursive D (d + 1) i with
    | ok r => exact .inl ⟨r, rfl⟩
    | err x =>
      rcases (parseDerRecursive_err D _ i x).1 h with ⟨n, _, h⟩ | ⟨e, _, h⟩
      · exact .inr (.inl ⟨n, h⟩)
      · exact .inr (.inr ⟨e, h⟩)
    | panic =>
      have := C02_parse_der_recursive_total D (d + 1) i
      rw [h] at this; exact absurd this (by simp [Outcome.Returns])
    | diverge =>
      have := C02_parse_der_recursive_total D (d + 1) i
      rw [h] at this; exact absurd this (by simp [Outcome.Returns])
  · rintro ⟨r, h⟩ n hn
    rw [(C85_incomplete_iff D _ i n).2 hn] at h; simp at h
  · rintro ⟨r, h⟩ e he
    rw [(C85_rejected_iff D _ i e).2 he] at h; simp at h
  · intro n e hn he
    have := (C85_incomplete_iff D _ i n).2 hn
    rw [(C85_rejected_iff D _ i e).2 he] at this
    simp at this

example := C85_complete Tests.D0 (fun _ _ _ => by simp [Tests.D0]) 49 [0x01, 0x01, 0x05]

/-- The answer to a cut element of universal class asks for all its contents octets, those already present
included, where `parse_ber` asks for the missing ones only. -/
theorem C85_need_whole (D : Deps) (d : Nat) (hb c : Bytes) (h : Header) (l : Nat) (H : DerHeader hb h)
    (hl : h.length = .definite l) (hs : l < 2 ^ 32) (hcls : h.cls = .universal) (hc : c.length < l) :
    parseDerRecursive D (d + 1) (hb ++ c) = .err (.incomplete (.size l)) ∧
      parseBerRecursive D (d + 1) (hb ++ c) = .err (.incomplete (.size (l - c.length))) :=
  ⟨(C85_incomplete_iff D _ _ l).2 (.universal hb c h l H hl hs hcls hc),
    (C81_incomplete_iff D d _ _).2 (.contents 49 l hb c h H.toBerHeader hl hc)⟩

example := C85_need_whole Tests.D0 49 [0x02, 0x03] [0x01] _ 3 (derHeader_read rfl) rfl (by decide) rfl (by decide)

/-- A BIT STRING without contents octets is invalid whatever follows, but the octet after it decides on the
error, and at the end of the input one octet more is asked for. -/
theorem C85_empty_bit_string (D : Deps) (d : Nat) (u : UInt8) (rest : Bytes) :
    parseDerRecursive D (d + 1) [0x03, 0x00] = .err (.incomplete (.size 1)) ∧
      parseDerRecursive D (d + 1) ([0x03, 0x00] ++ u :: rest) =
        .err (.error (if 7 < u.toNat then .invalidValue 3 else .invalidLength)) := by
  have H : DerHeader [0x03, 0x00] ⟨.universal, false, 3, .definite 0, some [0x03]⟩ :=
    ⟨⟨⟨[0x03], [0x00], 3, rfl, .low 3 (by decide), .short 0 (by decide), rfl, by decide, rfl⟩,
      by intro n hn; cases hn; decide, by simp⟩, by simp⟩
  refine ⟨(C85_incomplete_iff D _ _ _).2 (.emptyBits _ _ H rfl rfl rfl rfl), (C85_rejected_iff D _ _ _).2 ?_⟩
  split
  · rename_i hu
    exact .contents _ [] (u :: rest) _ _ H rfl (by decide) rfl (.emptyBitsUnused u rest rfl rfl hu) (by simp)
  · rename_i hu
    exact .contents _ [] (u :: rest) _ _ H rfl (by decide) rfl (.emptyBits u rest rfl rfl (by omega)) (by simp)

/-! Examples: the hypotheses are met. -/

/-- BOOLEAN with the value `01`. -/
example (D : Deps) : DerRejected D 50 [0x01, 0x01, 0x01] (.derConstraintFailed .invalidBoolean) :=
  .contents [0x01, 0x01] [0x01] [] ⟨.universal, false, 1, .definite 1, some [0x01]⟩ _
    ⟨⟨⟨[0x01], [0x01], 1, rfl, .low 1 (by decide), .short 1 (by decide), rfl, by decide, rfl⟩,
      by intro n hn; cases hn; decide, by simp⟩, by simp⟩ rfl (by decide) rfl
    (.rule _ _ _ (.booleanValue 1 rfl rfl (by decide) (by decide))) (by simp)


/-- SEQUENCE { NULL, INTEGER of three octets cut after one }. -/
example (D : Deps) : parseBerRecursive D 50 [0x30, 0x05, 0x05, 0x00, 0x02, 0x03, 0x01] =
    .err (.error (.incomplete (.size 2))) := rfl

/-- Constructed ENUMERATED inside a SEQUENCE. -/
example (D : Deps) : Rejected D 50 [0x30, 0x03, 0x2a, 0x01, 0x00] .constructUnexpected :=
  (C84_rejected_iff D 50 _ _).1 rfl

/-- The same, built from the specification. -/
example (D : Deps) : Rejected D 1 [0x2a, 0x01, 0x00] .constructUnexpected :=
  .contents 0 [0x2a, 0x01, 0x00] [] [0x00] ⟨.universal, true, 10, .definite 1, some [0x2a]⟩ _
    (.definite [0x2a, 0x01] [0x00] _
      ⟨⟨[0x2a], [0x01], 10, rfl, .low 0x2a (by decide), .short 1 (by decide), rfl, by decide, rfl⟩,
        by intro n hn; cases hn; decide, by simp⟩ rfl)
    (.leaf 0 _ _ _ rfl (.enumConstructed rfl rfl))

/-- Length of 2^64 octets. -/
example (D : Deps) (rest : Bytes) :
    Rejected D 1 ([0x04, 0x89, 0x01, 0, 0, 0, 0, 0, 0, 0, 0] ++ rest) .invalidLength :=
  .frame 0 _ _ (.header _ _ _ (.huge [0x04] [0x01, 0, 0, 0, 0, 0, 0, 0, 0] rest _ _ _ 0x89
    (.low 4 (by decide)) (by decide) (by decide) (by decide) (by decide) (by decide)))

end Verif
