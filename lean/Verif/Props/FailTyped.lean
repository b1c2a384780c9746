import Verif.Props.Fail
/-!
# Property C86: the answers of the functions for one type
-/
namespace Verif
open Outcome Spec

/-- Proof device: the part of `parse_ber_with_tag` (/repo/src/ber/parser.rs:233-245) after the checks of the
header. -/
def typedGo (D : Deps) (h : Header) (i : Bytes) : IRes BerError BerObject :=
  anyFromBer i >>? fun r =>
    liftRes (objectFromAny D 50 ⟨Header.new .universal h.constructed h.tag h.length, r.2.data⟩) >>? fun o =>
      .ok (r.1, .mk h o.content)

theorem parseBerWithTag_header (D : Deps) (tag : Nat) {hb : Bytes} {h : Header} (H : BerHeader hb h) (rest : Bytes) :
    parseBerWithTag D tag (hb ++ rest) =
      if h.tag ≠ tag then .err (.error (.unexpectedTag (some tag) h.tag))
      else
        match h.length with
        | .definite l =>
          if maxObjectSize < l then .err (.error .invalidLength)
          else if rest.length < l then .err (.incomplete (Needed.new l)) else typedGo D h (hb ++ rest)
        | .indefinite => typedGo D h (hb ++ rest) := by
  unfold parseBerWithTag
  rw [berHeader_reads H]
  simp only [ok_bind, Header.assertTag]
  by_cases ht : h.tag = tag
  · simp only [ht, if_true, liftRes, mapErr_ok, ok_bind, ne_eq, not_true_eq_false, if_false]
    have hgo : ((getObjectContent maxRecursion (Header.new .universal h.constructed tag h.length) rest >>?
          fun r => liftRes (objectFromAny D maxRecursion
            ⟨Header.new .universal h.constructed tag h.length, r.2⟩) >>?
          fun o => (.ok (r.1, o.content) : IRes BerError Content)) >>? fun s => .ok (s.1, BerObject.mk h s.2)) =
        typedGo D h (hb ++ rest) := by
      rw [getObjectContent_congr (h := Header.new .universal h.constructed tag h.length) (h' := h) rfl rfl ht.symm]
      unfold typedGo anyFromBer
      rw [berHeader_reads H, ht]
      simp only [ok_bind]
      cases getObjectContent maxRecursion h rest with
      | ok r =>
        simp only [ok_bind]
        change (liftRes (objectFromAny D 50 _) >>? _) >>? _ = _
        cases objectFromAny D 50 ⟨Header.new .universal h.constructed tag h.length, r.2⟩ <;> rfl
      | err e => rfl
      | panic => rfl
      | diverge => rfl
    unfold berReadElementContentAs
    cases hl : h.length with
    | definite l =>
      rw [hl] at hgo
      dsimp only
      split
      · rfl
      · split
        · rfl
        · exact hgo
    | indefinite =>
      rw [hl] at hgo
      exact hgo
  · simp [ht, liftRes]

theorem typedGo_err (D : Deps) (h : Header) {hb rest : Bytes} (H : BerHeader hb h) (x : NomErr BerError) :
    typedGo D h (hb ++ rest) = .err x ↔
      anyFromBer (hb ++ rest) = .err x ∨ ∃ el r c e, hb ++ rest = el ++ r ∧ Framed 50 el h c ∧ x = .error e ∧
        ContentFails D 50 (Header.new .universal h.constructed h.tag h.length) c e := by
  unfold typedGo
  constructor
  · intro hh
    rcases bind_eq_err.1 hh with h1 | ⟨⟨r, h', c⟩, h1, h2⟩
    · exact .inl h1
    · refine .inr ?_
      obtain ⟨el, he, hF⟩ := anyFromBer_framed.1 h1
      have hh' : h' = h := by
        obtain ⟨i1, h3, _⟩ := anyFromBer_ok h1
        rw [berHeader_reads H] at h3
        simp only [ok.injEq, Prod.mk.injEq] at h3
        exact h3.2.symm
      subst hh'
      rcases bind_eq_err.1 h2 with h3 | ⟨o, _, h3⟩
      · obtain ⟨e, h4, rfl⟩ := mapErr_eq_err.1 h3
        exact ⟨el, r, c, e, he, hF, rfl, (objectFromAny_err D _ _ _ _).1 h4⟩
      · simp at h3
  · rintro (hh | ⟨el, r, c, e, he, hF, rfl, hc⟩)
    · rw [hh]; rfl
    · rw [he, (anyFromBer_framed (rem := r) (a := ⟨h, c⟩)).2 ⟨el, rfl, hF⟩, ok_bind]
      dsimp only
      rw [(objectFromAny_err D _ _ _ _).2 hc]
      rfl

theorem framed_definite_anyFromBer {hb rest : Bytes} {h : Header} {l : Nat} (H : BerHeader hb h)
    (hl : h.length = .definite l) (hle : ¬ rest.length < l) (x : NomErr BerError) :
    anyFromBer (hb ++ rest) ≠ .err x := by
  have := anyFromBer_definite (c := rest.take l) H (by rw [hl, List.length_take, Nat.min_eq_left (by omega)])
    (rest.drop l)
  rw [List.append_assoc, List.take_append_drop] at this
  rw [this]
  simp

theorem parseBerWithTag_err (D : Deps) (tag : Nat) (i : Bytes) (x : NomErr BerError) :
    parseBerWithTag D tag i = .err x ↔
      (∃ n, x = .incomplete (.size n) ∧ TypedNeeds tag i n) ∨ ∃ e, x = .error e ∧ TypedRejected D tag i e := by
  have hmax : ∀ l, maxObjectSize < l ↔ 2 ^ 32 ≤ l := by intro l; unfold maxObjectSize; omega
  constructor
  · intro h
    cases hh : headerFromBer i with
    | ok r =>
      obtain ⟨rest, hd⟩ := r
      obtain ⟨hb, rfl, H⟩ := headerFromBer_iff.1 hh
      rw [parseBerWithTag_header D tag H] at h
      split at h
      · rename_i ht
        simp only [err.injEq] at h
        exact .inr ⟨_, h.symm, .tag hb rest hd H ht⟩
      · rename_i ht
        have ht : hd.tag = tag := by simpa using ht
        split at h
        · rename_i l hl
          simp only [hmax] at h
          split at h
          · rename_i hs
            simp only [err.injEq] at h
            exact .inr ⟨_, h.symm, .size hb rest hd l H ht hl hs⟩
          · rename_i hs
            split at h
            · rename_i hlt
              simp only [err.injEq, Needed.new] at h
              rw [if_neg (by omega)] at h
              exact .inl ⟨_, h.symm, .definite hb rest hd l H ht hl (by omega) hlt⟩
            · rename_i hle
              rcases (typedGo_err D hd H x).1 h with h | ⟨el, r, c, e, he, hF, rfl, hc⟩
              · exact absurd h (framed_definite_anyFromBer H hl hle x)
              · refine .inr ⟨e, rfl, ?_⟩
                rw [he]
                exact .contents el r c hd e hF ht (fun l' h' => by rw [hl] at h'; cases h'; omega) hc
        · rename_i hl
          rcases (typedGo_err D hd H x).1 h with h | ⟨el, r, c, e, he, hF, rfl, hc⟩
          · rcases anyFromBer_err_cases h with ⟨m, rfl, hm⟩ | ⟨e, rfl, he⟩
            · exact .inl ⟨m, rfl, .indefinite hb rest hd m H ht hl hm⟩
            · exact .inr ⟨e, rfl, .frame hb rest hd e H ht hl he⟩
          · refine .inr ⟨e, rfl, ?_⟩
            rw [he]
            exact .contents el r c hd e hF ht (fun l' h' => by rw [hl] at h'; cases h') hc
    | err y =>
      have : parseBerWithTag D tag i = .err y := by unfold parseBerWithTag; rw [hh]; rfl
      rw [this] at h
      simp only [err.injEq] at h
      subst h
      rcases headerFromBer_err hh with ⟨n, rfl⟩ | ⟨e, rfl⟩
      · exact .inl ⟨n, rfl, .header i n (headerFromBer_incomplete.1 hh)⟩
      · exact .inr ⟨e, rfl, .header i e (headerFromBer_error.1 hh)⟩
    | panic => unfold parseBerWithTag at h; rw [hh] at h; simp at h
    | diverge => unfold parseBerWithTag at h; rw [hh] at h; simp at h
  · rintro (⟨n, rfl, h⟩ | ⟨e, rfl, h⟩)
    · cases h with
      | header _ _ h => unfold parseBerWithTag; rw [headerFromBer_incomplete.2 h]; rfl
      | definite hb c h _ H ht hl hs hlt =>
        rw [parseBerWithTag_header D tag H, if_neg (by simpa using ht), hl]
        simp only [hmax]
        rw [if_neg (by omega), if_pos hlt, Needed.new, if_neg (by omega)]
      | indefinite hb rest h _ H ht hl hc =>
        rw [parseBerWithTag_header D tag H, if_neg (by simpa using ht), hl]
        exact (typedGo_err D h H _).2 (.inl (anyFromBer_incomplete.2 hc))
    · cases h with
      | header _ _ h => unfold parseBerWithTag; rw [headerFromBer_error.2 h]; rfl
      | tag hb rest h H ht => rw [parseBerWithTag_header D tag H, if_pos ht]
      | size hb rest h l H ht hl hs =>
        rw [parseBerWithTag_header D tag H, if_neg (by simpa using ht), hl]
        simp only [hmax]
        rw [if_pos hs]
      | frame hb rest h _ H ht hl hf =>
        rw [parseBerWithTag_header D tag H, if_neg (by simpa using ht), hl]
        exact (typedGo_err D h H _).2 (.inl (anyFromBer_error.2 hf))
      | contents el rest c h _ hF ht hs hc =>
        obtain ⟨i1, h1, h2⟩ := anyFromBer_ok ((anyFromBer_framed (i := el ++ rest) (rem := rest)
          (a := ⟨h, c⟩)).2 ⟨el, rfl, hF⟩)
        obtain ⟨hb, he, H⟩ := headerFromBer_iff.1 h1
        have hgo := (typedGo_err D h H (.error e)).2 (.inr ⟨el, rest, c, e, he.symm, hF, rfl, hc⟩)
        rw [he, parseBerWithTag_header D tag H, if_neg (by simpa using ht)]
        cases hl : h.length with
        | indefinite => exact hgo
        | definite l =>
          have := hs l hl
          simp only [hmax]
          rw [if_neg (by omega), if_neg]
          · exact hgo
          · obtain ⟨h3, h4⟩ := getObjectContent_def_len hl h2
            have : i1 = c ++ rest := h3
            rw [this, List.length_append]
            have : c.length = l := h4
            omega

/-- C86: the BER function for a tag number rejects exactly the inputs specified, with the error specified. -/
theorem C86_ber_rejected_iff (D : Deps) (tag : Nat) (i : Bytes) (e : BerError) :
    parseBerWithTag D tag i = .err (.error e) ↔ TypedRejected D tag i e := by
  rw [parseBerWithTag_err]
  simp

/-- C86: the BER function for a tag number asks for octets exactly as specified. -/
theorem C86_ber_incomplete_iff (D : Deps) (tag : Nat) (i : Bytes) (n : Nat) :
    parseBerWithTag D tag i = .err (.incomplete (.size n)) ↔ TypedNeeds tag i n := by
  rw [parseBerWithTag_err]
  simp

theorem parseDerWithTag_err (D : Deps) (tag : Nat) (i : Bytes) (x : NomErr BerError) :
    parseDerWithTag D tag i = .err x ↔
      (∃ n, x = .incomplete (.size n) ∧ DerTypedNeeds tag i n) ∨
        ∃ e, x = .error e ∧ DerTypedRejected D tag i e := by
  have hdef : ∀ {hb rest : Bytes} {h : Header}, DerHeader hb h → parseDerWithTag D tag (hb ++ rest) =
      if h.tag ≠ tag then .err (.error (.unexpectedTag (some tag) h.tag))
      else derReadElementContentAs D rest h.tag h.length h.constructed 50 >>?
        fun s => .ok (s.1, .mk h s.2) := by
    intro hb rest h H
    have := parseDerWithTag_definite D tag (c := []) H rest
    rw [List.append_nil, List.nil_append] at this
    exact this
  constructor
  · intro h
    cases hh : headerFromDer i with
    | ok r =>
      obtain ⟨rest, hd⟩ := r
      obtain ⟨hb, rfl, H⟩ := headerFromDer_iff.1 hh
      rw [hdef H] at h
      split at h
      · rename_i ht
        simp only [err.injEq] at h
        exact .inr ⟨_, h.symm, .tag hb rest hd H ht⟩
      · rename_i ht
        have ht : hd.tag = tag := by simpa using ht
        rcases bind_eq_err.1 h with h1 | ⟨s, _, h1⟩
        · cases hl : hd.length with
          | indefinite => exact absurd hl H.definite
          | definite l =>
            rw [hl] at h1
            by_cases hlt : rest.length < l
            · rw [derReadElementContentAs_short hlt] at h1
              simp only [err.injEq] at h1
              exact .inl ⟨l, h1.symm, .contents hb rest hd l H ht hl hlt⟩
            · obtain ⟨c, rest', rfl, hc⟩ : ∃ c rest', rest = c ++ rest' ∧ c.length = l :=
                ⟨rest.take l, rest.drop l, by simp, by simp; omega⟩
              subst hc
              rcases derReadElementContentAs_err.1 h1 with ⟨g1, g2, rfl, rfl, rfl⟩ | ⟨e, rfl, hf⟩
              · refine .inl ⟨1, rfl, ?_⟩
                rw [List.append_nil, List.append_nil]
                exact .emptyBits hb hd H ht hl (by omega) g2
              · exact .inr ⟨e, rfl, .contents hb c rest' hd e H ht hl hf⟩
        · simp at h1
    | err y =>
      have : parseDerWithTag D tag i = .err y := by unfold parseDerWithTag; rw [hh]; rfl
      rw [this] at h
      simp only [err.injEq] at h
      subst h
      rcases headerFromDer_err hh with ⟨n, rfl⟩ | ⟨e, rfl⟩
      · exact .inl ⟨n, rfl, .header i n (headerFromDer_incomplete.1 hh)⟩
      · exact .inr ⟨e, rfl, .header i e (headerFromDer_error.1 hh)⟩
    | panic => unfold parseDerWithTag at h; rw [hh] at h; simp at h
    | diverge => unfold parseDerWithTag at h; rw [hh] at h; simp at h
  · rintro (⟨n, rfl, h⟩ | ⟨e, rfl, h⟩)
    · cases h with
      | header _ _ h => unfold parseDerWithTag; rw [headerFromDer_incomplete.2 h]; rfl
      | contents hb c h _ H ht hl hlt =>
        rw [hdef H, if_neg (by simpa using ht), hl, derReadElementContentAs_short hlt]
        rfl
      | emptyBits _ h H ht hl h3 hk =>
        have := hdef H (rest := [])
        rw [List.append_nil] at this
        rw [this, if_neg (by simpa using ht), hl]
        have := (derReadElementContentAs_err (D := D) (d := 50) (c := []) (rest := []) (tag := h.tag)
          (k := h.constructed) (x := .incomplete (.size 1))).2 (.inl ⟨by omega, hk, rfl, rfl, rfl⟩)
        simp only [List.append_nil, List.length_nil] at this
        rw [this]
        rfl
    · cases h with
      | header _ _ h => unfold parseDerWithTag; rw [headerFromDer_error.2 h]; rfl
      | tag hb rest h H ht => rw [hdef H, if_pos ht]
      | contents hb c rest h _ H ht hl hf =>
        rw [hdef H, if_neg (by simpa using ht), hl, derReadElementContentAs_err.2 (.inr ⟨e, rfl, hf⟩)]
        rfl

/-- C86: the DER function for a tag number rejects exactly the inputs specified, with the error specified. -/
theorem C86_der_rejected_iff (D : Deps) (tag : Nat) (i : Bytes) (e : BerError) :
    parseDerWithTag D tag i = .err (.error e) ↔ DerTypedRejected D tag i e := by
  rw [parseDerWithTag_err]
  simp

/-- C86: the DER function for a tag number asks for octets exactly as specified. -/
theorem C86_der_incomplete_iff (D : Deps) (tag : Nat) (i : Bytes) (n : Nat) :
    parseDerWithTag D tag i = .err (.incomplete (.size n)) ↔ DerTypedNeeds tag i n := by
  rw [parseDerWithTag_err]
  simp

/-- C86: `Err::Failure` and `Incomplete(Unknown)` are never answered. -/
theorem C86_answers (D : Deps) (tag : Nat) (i : Bytes) (x : NomErr BerError)
    (h : parseBerWithTag D tag i = .err x ∨ parseDerWithTag D tag i = .err x) :
    (∃ n, x = .incomplete (.size n)) ∨ ∃ e, x = .error e := by
  rcases h with h | h
  · rcases (parseBerWithTag_err D tag i x).1 h with ⟨n, h, _⟩ | ⟨e, h, _⟩
    · exact .inl ⟨n, h⟩
    · exact .inr ⟨e, h⟩
  · rcases (parseDerWithTag_err D tag i x).1 h with ⟨n, h, _⟩ | ⟨e, h, _⟩
    · exact .inl ⟨n, h⟩
    · exact .inr ⟨e, h⟩

example := C86_answers Tests.D0 1 [0x02, 0x01, 0x05] _ (.inl rfl)

/-- C86: what the four readers say about an announced length `l` of 2^32 octets or more that is not there.
The typed BER function and `parse_der` refuse it, `parse_ber` asks for what is missing, the typed DER function for
all of it. -/
theorem C86_oversize (D : Deps) (d : Nat) (hb c : Bytes) (h : Header) (l : Nat) (H : DerHeader hb h)
    (hl : h.length = .definite l) (hs : 2 ^ 32 ≤ l) (hc : c.length < l) :
    parseBerRecursive D (d + 1) (hb ++ c) = .err (.incomplete (.size (l - c.length))) ∧
      parseBerWithTag D h.tag (hb ++ c) = .err (.error .invalidLength) ∧
      parseDerRecursive D (d + 1) (hb ++ c) = .err (.error .invalidLength) ∧
      parseDerWithTag D h.tag (hb ++ c) = .err (.incomplete (.size l)) :=
  ⟨(C81_incomplete_iff D d _ _).2 (.contents 49 l hb c h H.toBerHeader hl hc),
    (C86_ber_rejected_iff D _ _ _).2 (.size hb c h l H.toBerHeader rfl hl hs),
    (C85_rejected_iff D _ _ _).2 (.size hb c h l H hl hs),
    (C86_der_incomplete_iff D _ _ _).2 (.contents hb c h l H rfl hl hc)⟩

/-! Examples: the hypotheses are met. -/

/-- Length of 2^32 octets. -/
example : DerHeader [0x04, 0x85, 0x01, 0, 0, 0, 0] ⟨.universal, false, 4, .definite (2 ^ 32), some [0x04]⟩ :=
  ⟨⟨⟨[0x04], [0x85, 0x01, 0, 0, 0, 0], 4, rfl, .low 4 (by decide),
    .long 0x85 [0x01, 0, 0, 0, 0] (by decide) (by decide) (by decide), rfl, by decide, rfl⟩,
    by intro n hn; cases hn; decide, by simp⟩, by simp⟩

/-- A BOOLEAN function given an INTEGER. -/
example (D : Deps) : TypedRejected D 1 [0x02, 0x01, 0x05] (.unexpectedTag (some 1) 2) :=
  .tag [0x02, 0x01] [0x05] ⟨.universal, false, 2, .definite 1, some [0x02]⟩
    ⟨⟨[0x02], [0x01], 2, rfl, .low 2 (by decide), .short 1 (by decide), rfl, by decide, rfl⟩,
      by intro n hn; cases hn; decide, by simp⟩ (by decide)

end Verif
