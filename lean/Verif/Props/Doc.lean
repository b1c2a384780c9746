import Verif.Schema
import Verif.Props.FailComb
/-!
# What the documentation says about defined sequences: C99
-/
namespace Verif
open Outcome Spec

section
variable {E O : Type} [ParseErr E]

/-- C99: "The nom combinator `all_consuming` can be used to ensure all the content is parsed"
(/repo/src/ber/multi.rs:309, 397, 464; /repo/src/der/multi.rs:310, 398, 465): around the closure of a container it
makes the container accept exactly the elements whose contents octets are read to their end. -/
theorem C99_all_consuming (R : Rules) (f : Bytes → Header → IRes E O) (i rem : Bytes) (v : O) :
    container R (fun c h => allConsuming (fun c => f c h) c) i = .ok (rem, v) ↔
      ∃ h c, FramedBy R i rem h c ∧ f c h = .ok ([], v) := by
  rw [C38_container_ok]
  constructor
  · rintro ⟨h, c, rem', h1, h2⟩
    refine ⟨h, c, h1, ?_⟩
    unfold allConsuming at h2
    obtain ⟨⟨r, w⟩, h3, h4⟩ := bind_eq_ok.1 h2
    cases r with
    | nil =>
      simp only [ok.injEq, Prod.mk.injEq] at h4
      rw [← h4.2]; exact h3
    | cons _ _ => simp at h4
  · rintro ⟨h, c, h1, h2⟩
    refine ⟨h, c, [], h1, ?_⟩
    unfold allConsuming
    dsimp only
    rw [h2]
    rfl

example := (C99_all_consuming .ber (fun c _ => parseBer Tests.D0 c) [0x30, 0x02, 0x05, 0x00, 9] [9] _).1 rfl

/-- C99: for SEQUENCE and SET. -/
theorem C99_all_consuming_defined (R : Rules) (tag : Nat) (f : Bytes → Header → IRes E O) (i rem : Bytes) (v : O) :
    definedG R tag (fun c h => allConsuming (fun c => f c h) c) i = .ok (rem, v) ↔
      ∃ h c, FramedBy R i rem h c ∧ h.tag = tag ∧ f c h = .ok ([], v) := by
  have hu : definedG R tag (fun c h => allConsuming (fun c => f c h) c) =
      container R (fun c h => allConsuming (fun c => liftResE (h.assertTag tag) >>? fun _ => f c h) c) := by
    unfold definedG
    congr 1
    funext c h
    unfold allConsuming
    cases liftResE (E := E) (h.assertTag tag) <;> rfl
  rw [hu, C99_all_consuming]
  constructor
  · rintro ⟨h, c, h1, h2⟩
    obtain ⟨_, h3, h4⟩ := bind_eq_ok.1 h2
    refine ⟨h, c, h1, ?_, h4⟩
    rw [liftResE_eq_ok] at h3
    unfold Header.assertTag at h3
    split at h3
    · assumption
    · simp at h3
  · rintro ⟨h, c, h1, h2, h3⟩
    refine ⟨h, c, h1, ?_⟩
    rw [show h.assertTag tag = .ok () by simp [Header.assertTag, h2]]
    exact h3

example := (C99_all_consuming_defined .ber 16 (fun c _ => parseBer Tests.D0 c) [0x30, 0x02, 0x05, 0x00, 9] [9] _).1 rfl

/-- C99: octets of the contents that are not read are an error, of kind `Eof` and at these octets; without
`all_consuming` they are ignored (C38_container). -/
theorem C99_all_consuming_rest (R : Rules) (f : Bytes → Header → IRes E O) (i rem c q : Bytes) (h : Header) (b : UInt8)
    (v : O) (hF : FramedBy R i rem h c) (hf : f c h = .ok (b :: q, v)) :
    container R (fun c h => allConsuming (fun c => f c h) c) i = .err (.error (ParseErr.ofKind (b :: q) .eof)) ∧
    container R f i = .ok (rem, v) := by
  rw [C38_container R _ i rem c h hF, C38_container R _ i rem c h hF]
  unfold allConsuming
  dsimp only
  rw [hf]
  exact ⟨rfl, rfl⟩

example := C99_all_consuming_rest .ber (fun c _ => parseBer Tests.D0 c) [0x30, 0x03, 0x05, 0x00, 7, 9] [9] _ [] _ 7 _
  ((frame_iff (E := BerError)).1 rfl) rfl

end

/-! ## `many1(complete(f))` -/

theorem many1Rest_ok {f : Bytes → IRes BerError BerObject} (hf : ∀ j r v, f j = .ok (r, v) → r.length ≤ j.length)
    {fuel : Nat} {c q : Bytes} {vs : List BerObject} (hfuel : c.length < fuel) :
    many1Rest (complete f) fuel c = .ok (q, vs) ↔
      Items f c vs q ∧ ((∃ e, f q = .err (.error e)) ∨ ∃ n, f q = .err (.incomplete n)) := by
  have hok : ∀ c r, complete f c = .ok r ↔ f c = .ok r := by
    intro c r
    unfold complete
    split <;> rename_i h
    · rw [h]; simp
    · rfl
  have herr : ∀ c, (∃ e, complete f c = .err (.error e)) ↔
      ((∃ e, f c = .err (.error e)) ∨ ∃ n, f c = .err (.incomplete n)) := by
    intro c
    unfold complete
    split
    · rename_i n h
      exact ⟨fun _ => .inr ⟨n, h⟩, fun _ => ⟨_, rfl⟩⟩
    · rename_i h
      constructor
      · rintro ⟨e, he⟩; exact .inl ⟨e, he⟩
      · rintro (⟨e, he⟩ | ⟨n, hn⟩)
        · exact ⟨e, he⟩
        · exact absurd hn (h n)
  induction fuel generalizing c vs with
  | zero => omega
  | succ fuel ih =>
    constructor
    · intro h
      unfold many1Rest at h
      split at h
      · rename_i e he
        simp only [ok.injEq, Prod.mk.injEq] at h
        obtain ⟨rfl, rfl⟩ := h
        exact ⟨.nil _, (herr _).1 ⟨e, he⟩⟩
      · simp at h
      · simp at h
      · simp at h
      · rename_i r hr
        have hr' := (hok _ _).1 hr
        have hlen := hf c r.1 r.2 hr'
        split at h
        · simp at h
        · rename_i hne
          obtain ⟨⟨q', ws⟩, h1, h2⟩ := bind_eq_ok.1 h
          simp only [ok.injEq, Prod.mk.injEq] at h2
          obtain ⟨rfl, rfl⟩ := h2
          obtain ⟨h3, h4⟩ := (ih (by omega)).1 h1
          exact ⟨.cons _ r.1 r.2 ws _ hr' (by omega) h3, h4⟩
    · rintro ⟨hI, hE⟩
      unfold many1Rest
      cases hI with
      | nil =>
        obtain ⟨e, he⟩ := (herr _).2 hE
        rw [he]
      | cons _ rem v ws _ h1 h2 h3 =>
        rw [(hok _ _).2 h1]
        simp only
        rw [if_neg (by omega), (ih (by omega)).2 ⟨h3, hE⟩]
        rfl

/-- C99: what `many1(complete(f))` accepts: at least one item; then items, each from at least one octet, as long as
`f` reads them; whatever is left is ignored, if `f` answers it with `Error` or `Incomplete`. -/
theorem C99_many1_exact (f : Bytes → IRes BerError BerObject) (hf : ∀ j r v, f j = .ok (r, v) → r.length ≤ j.length)
    (c q : Bytes) (vs : List BerObject) :
    many1 (complete f) c = .ok (q, vs) ↔
      ∃ rem v ws, f c = .ok (rem, v) ∧ Items f rem ws q ∧ vs = v :: ws ∧
        ((∃ e, f q = .err (.error e)) ∨ ∃ n, f q = .err (.incomplete n)) := by
  unfold many1
  rw [bind_eq_ok]
  constructor
  · rintro ⟨⟨r, v⟩, h1, h2⟩
    obtain ⟨⟨q', ws⟩, h3, h4⟩ := bind_eq_ok.1 h2
    simp only [ok.injEq, Prod.mk.injEq] at h4
    obtain ⟨rfl, rfl⟩ := h4
    have h5 : f c = .ok (r, v) := by
      unfold complete at h1
      split at h1
      · simp at h1
      · exact h1
    obtain ⟨h6, h7⟩ := (many1Rest_ok hf (by dsimp only; omega)).1 h3
    exact ⟨r, v, ws, h5, h6, rfl, h7⟩
  · rintro ⟨r, v, ws, h1, h2, rfl, h3⟩
    refine ⟨(r, v), by unfold complete; rw [h1], ?_⟩
    dsimp only
    rw [(many1Rest_ok hf (by omega)).2 ⟨h2, h3⟩]
    rfl

/-- The parser of INTEGERs; the NULL that follows them is left. -/
example := (C99_many1_exact (parseBerWithTag Tests.D0 2) (fun _ _ _ h => (local_parseBerWithTag _ 2).length_le h)
  [0x02, 0x01, 0x05, 0x02, 0x01, 0x06, 0x05, 0x00] [0x05, 0x00] _).1 rfl

theorem many1Rest_err {f : Bytes → IRes BerError BerObject} (hf : ∀ j r v, f j = .ok (r, v) → r.length ≤ j.length)
    {fuel : Nat} {c : Bytes} {x : NomErr BerError} (hfuel : c.length < fuel) :
    many1Rest (complete f) fuel c = .err x ↔ ∃ ws q, Items f c ws q ∧
      ((∃ b, x = .failure b ∧ f q = .err (.failure b)) ∨
        (x = .error (.nomError .many1) ∧ ∃ r w, f q = .ok (r, w) ∧ r.length = q.length)) := by
  induction fuel generalizing c with
  | zero => omega
  | succ fuel ih =>
    have hstop : (∀ r, f c ≠ .ok r) → (∀ b, f c ≠ .err (.failure b)) → ¬ ∃ ws q, Items f c ws q ∧
        ((∃ b, x = .failure b ∧ f q = .err (.failure b)) ∨
          (x = .error (.nomError .many1) ∧ ∃ r w, f q = .ok (r, w) ∧ r.length = q.length)) := by
      rintro h1 h2 ⟨ws, q, h3, h4⟩
      cases h3 with
      | nil =>
        rcases h4 with ⟨b, _, h4⟩ | ⟨_, r, w, h4, _⟩
        · exact h2 b h4
        · exact h1 _ h4
      | cons _ rem v ws _ g1 => exact h1 _ g1
    unfold many1Rest complete
    cases hc : f c with
    | err e =>
      cases e with
      | incomplete n => simpa using hstop (by simp [hc]) (by simp [hc])
      | error b => simpa using hstop (by simp [hc]) (by simp [hc])
      | failure b =>
        constructor
        · intro h
          simp only [err.injEq] at h
          subst h
          exact ⟨[], c, .nil _, .inl ⟨b, rfl, hc⟩⟩
        · rintro ⟨ws, q, h3, h4⟩
          cases h3 with
          | nil =>
            rcases h4 with ⟨b', rfl, h4⟩ | ⟨_, r, w, h4, _⟩
            · rw [hc] at h4
              cases h4
              rfl
            · rw [hc] at h4
              cases h4
          | cons _ rem v ws _ g1 =>
            rw [hc] at g1
            cases g1
    | panic => simpa using hstop (by simp [hc]) (by simp [hc])
    | diverge => simpa using hstop (by simp [hc]) (by simp [hc])
    | ok r =>
      have hlen := hf c r.1 r.2 hc
      dsimp only
      by_cases hr : r.1.length = c.length
      · rw [if_pos hr]
        constructor
        · intro h
          simp only [err.injEq] at h
          exact ⟨[], c, .nil _, .inr ⟨h.symm, r.1, r.2, hc, hr⟩⟩
        · rintro ⟨ws, q, h3, h4⟩
          cases h3 with
          | nil =>
            rcases h4 with ⟨b', rfl, h4⟩ | ⟨rfl, _⟩
            · rw [hc] at h4
              cases h4
            · rfl
          | cons _ rem v ws _ g1 g2 =>
            rw [hc] at g1
            cases g1
            simp only at hr
            omega
      · rw [if_neg hr, bind_eq_err]
        have := ih (c := r.1) (by omega)
        constructor
        · intro h
          obtain ⟨ws, q, h1, h2⟩ := this.1 (h.resolve_right (by rintro ⟨_, _, h⟩; cases h))
          exact ⟨r.2 :: ws, q, .cons _ r.1 r.2 ws _ hc (by omega) h1, h2⟩
        · rintro ⟨ws, q, h3, h4⟩
          refine .inl (this.2 ?_)
          cases h3 with
          | nil =>
            rcases h4 with ⟨b', rfl, h4⟩ | ⟨_, r', w, h4, h5⟩
            · rw [hc] at h4
              cases h4
            · rw [hc] at h4
              cases h4
              exact absurd h5 hr
          | cons _ rem v ws _ g1 g2 g3 =>
            rw [hc] at g1
            cases g1
            exact ⟨ws, q, g3, h4⟩

/-- C99: what `many1(complete(f))` refuses, and with which error: the error of the first item, `Complete` if octets are missing
there; after that only a `Failure` of an item, or an item that is read from no octets. -/
theorem C99_many1_refused (f : Bytes → IRes BerError BerObject) (hf : ∀ j r v, f j = .ok (r, v) → r.length ≤ j.length)
    (c : Bytes) (x : NomErr BerError) :
    many1 (complete f) c = .err x ↔
      (x = .error (.nomError .complete) ∧ ∃ n, f c = .err (.incomplete n)) ∨ (f c = .err x ∧ ∀ n, x ≠ .incomplete n) ∨
      ∃ rem v ws q, f c = .ok (rem, v) ∧ Items f rem ws q ∧
        ((∃ b, x = .failure b ∧ f q = .err (.failure b)) ∨
          (x = .error (.nomError .many1) ∧ ∃ r w, f q = .ok (r, w) ∧ r.length = q.length)) := by
  unfold many1 complete
  cases hc : f c with
  | err e =>
    cases e with
    | incomplete n =>
      constructor
      · intro h
        exact .inl ⟨(err.inj h).symm, n, rfl⟩
      · rintro (⟨rfl, _⟩ | ⟨h, h'⟩ | ⟨_, _, _, _, h, _⟩)
        · rfl
        · exact absurd (err.inj h).symm (h' n)
        · cases h
    | error b =>
      constructor
      · intro h
        cases h
        exact .inr (.inl ⟨rfl, by simp⟩)
      · rintro (⟨_, _, h⟩ | ⟨h, _⟩ | ⟨_, _, _, _, h, _⟩)
        · cases h
        · cases h
          rfl
        · cases h
    | failure b =>
      constructor
      · intro h
        cases h
        exact .inr (.inl ⟨rfl, by simp⟩)
      · rintro (⟨_, _, h⟩ | ⟨h, _⟩ | ⟨_, _, _, _, h, _⟩)
        · cases h
        · cases h
          rfl
        · cases h
  | panic => simp
  | diverge => simp
  | ok r =>
    have := many1Rest_err hf (c := r.1) (fuel := r.1.length + 1) (x := x) (by omega)
    rw [ok_bind, bind_eq_err]
    constructor
    · intro h
      obtain ⟨ws, q, h1, h2⟩ := this.1 (h.resolve_right (by rintro ⟨_, _, h⟩; cases h))
      exact .inr (.inr ⟨r.1, r.2, ws, q, rfl, h1, h2⟩)
    · rintro (⟨_, _, h⟩ | ⟨h, _⟩ | ⟨rem, v, ws, q, h, h1, h2⟩)
      · cases h
      · cases h
      · cases h
        exact .inl (this.2 ⟨ws, q, h1, h2⟩)

example := (C99_many1_refused (parseBerWithTag Tests.D0 2) (fun _ _ _ h => (local_parseBerWithTag _ 2).length_le h)
  [0x05, 0x00] _).1 rfl

/-- C99 in full: "Parsing a sequence of identical types (same as `parse_ber_sequence_of`)"
(/repo/src/ber/multi.rs:94, 317; /repo/src/der/multi.rs:95, 318), for the integers of the examples: the defined
sequence and the sequence-of accept the same input with the same result. -/
def C99Statement : Prop :=
  ∀ (D : Deps) (R : Rules) (i : Bytes) (x : Bytes × BerObject),
    (sequenceDefined R (many1 (complete (parseBerWithTag D 2))) i = .ok x ↔
      sequenceOf R (parseBerWithTag D 2) i = .ok x) ∧
    (setDefined R (many1 (complete (parseBerWithTag D 2))) i = .ok x ↔
      setOf R (parseBerWithTag D 2) i = .ok x)

/-- C99 is false: the empty sequence is refused by the defined version only. -/
theorem C99_empty_counterexample : ¬ C99Statement := by
  intro h
  have := ((h Tests.D0 .ber [0x30, 0x00] ([], .fromSeq [])).1).2 rfl
  have h2 : sequenceDefined .ber (many1 (complete (parseBerWithTag Tests.D0 2))) [0x30, 0x00] =
    .err (.error (.nomError .complete)) := rfl
  rw [h2] at this
  simp at this

/-- C99 is false in the other direction as well: a SEQUENCE of an INTEGER and a BOOLEAN is accepted by the
defined version as a sequence of one INTEGER; the sequence-of refuses it. -/
theorem C99_trailing_counterexample : ¬ C99Statement := by
  intro h
  have := ((h Tests.D0 .ber [0x30, 0x06, 0x02, 0x01, 0x05, 0x01, 0x01, 0xff]
    ([], .fromSeq [.mk ⟨.universal, false, 2, .definite 1, some [2]⟩ (.integer [5])])).1).1 rfl
  have h2 : sequenceOf .ber (parseBerWithTag Tests.D0 2) [0x30, 0x06, 0x02, 0x01, 0x05, 0x01, 0x01, 0xff] =
    .err (.failure (.unexpectedTag (some 2) 1)) := rfl
  rw [h2] at this
  simp at this

theorem chain_items {E T : Type} {f : Bytes → IRes E T} {c : Bytes} {vs : List T} :
    Chain f c vs ↔ Items f c vs [] := by
  constructor
  · intro h
    induction h with
    | nil => exact .nil _
    | cons i rem v vs h1 h2 _ ih => exact .cons i rem v vs _ h1 h2 ih
  · intro h
    generalize hq : ([] : Bytes) = q at h
    induction h with
    | nil => subst hq; exact .nil
    | cons i rem v vs _ h1 h2 _ ih => exact .cons i rem v vs h1 h2 (ih hq)

/-- The octets on which the two versions agree: contents read to their end, with at least one item. -/
theorem definedMany1_of {f : Bytes → IRes BerError BerObject}
    (hf : ∀ j r v, f j = .ok (r, v) → r.length ≤ j.length) (he : ∃ n, f [] = .err (.incomplete n)) (R : Rules)
    (tag : Nat) (i rem : Bytes) (vs : List BerObject) (hne : vs ≠ []) :
    ofV R tag f i = .ok (rem, vs) ↔
      ∃ h c, FramedBy R i rem h c ∧ h.tag = tag ∧ Chain f c vs ∧ many1 (complete f) c = .ok ([], vs) := by
  rw [C37_of_v_partial R tag f i rem vs hf he]
  constructor
  · rintro ⟨h, c, h1, h2, h3⟩
    refine ⟨h, c, h1, h2, h3, (C99_many1_exact f hf c [] vs).2 ?_⟩
    cases h3 with
    | nil => exact absurd rfl hne
    | cons _ r v ws g1 g2 g3 => exact ⟨r, v, ws, g1, chain_items.1 g3, rfl, .inr he⟩
  · rintro ⟨h, c, h1, h2, h3, _⟩; exact ⟨h, c, h1, h2, h3⟩

/-- C99, what holds: whatever the sequence-of (set-of) accepts, if it is not empty, the defined version with
`many1(complete(f))` accepts with the same result.  Missing: the empty sequence, and the refusal of contents with
other octets at the end. -/
theorem C99_same_partial (R : Rules) (f : Bytes → IRes BerError BerObject)
    (hf : ∀ j r v, f j = .ok (r, v) → r.length ≤ j.length) (he : ∃ n, f [] = .err (.incomplete n))
    (i rem : Bytes) (vs : List BerObject) (hne : vs ≠ []) :
    (sequenceOf R f i = .ok (rem, .fromSeq vs) →
      sequenceDefined R (many1 (complete f)) i = .ok (rem, .fromSeq vs)) ∧
    (setOf R f i = .ok (rem, .fromSet vs) →
      setDefined R (many1 (complete f)) i = .ok (rem, .fromSet vs)) := by
  constructor
  · intro h
    unfold sequenceOf mapRes at h
    obtain ⟨⟨r, ws⟩, h1, h2⟩ := bind_eq_ok.1 h
    simp only [ok.injEq, Prod.mk.injEq, BerObject.fromSeq, BerObject.fromObj, BerObject.mk.injEq,
      Content.sequence.injEq] at h2
    obtain ⟨rfl, _, rfl⟩ := h2
    obtain ⟨hd, c, g1, g2, _, g4⟩ := (definedMany1_of hf he R _ i r ws hne).1 h1
    unfold sequenceDefined mapRes
    rw [C38_defined R _ _ i r c hd g1, if_pos g2, g4]
    rfl
  · intro h
    unfold setOf mapRes at h
    obtain ⟨⟨r, ws⟩, h1, h2⟩ := bind_eq_ok.1 h
    simp only [ok.injEq, Prod.mk.injEq, BerObject.fromSet, BerObject.fromObj, BerObject.mk.injEq,
      Content.set.injEq] at h2
    obtain ⟨rfl, _, rfl⟩ := h2
    obtain ⟨hd, c, g1, g2, _, g4⟩ := (definedMany1_of hf he R _ i r ws hne).1 h1
    unfold setDefined mapRes
    rw [C38_defined R _ _ i r c hd g1, if_pos g2, g4]
    rfl

example := (C99_same_partial .ber (parseBerWithTag Tests.D0 2) (fun _ _ _ h => (local_parseBerWithTag _ 2).length_le h) ⟨.size 1, rfl⟩
  [0x30, 0x06, 0x02, 0x01, 0x05, 0x02, 0x01, 0x06, 9] [9] [_, _] (by simp)).1 rfl

/-- C99: with `all_consuming` around `many1(complete(f))`, the two differ on the empty sequence only. -/
theorem C99_same_all_consuming (R : Rules) (f : Bytes → IRes BerError BerObject)
    (hf : ∀ j r v, f j = .ok (r, v) → r.length < j.length) (he : ∃ n, f [] = .err (.incomplete n))
    (tag : Nat) (i rem : Bytes) (vs : List BerObject) :
    definedG R tag (fun c _ => allConsuming (many1 (complete f)) c) i = .ok (rem, vs) ↔
      ofV R tag f i = .ok (rem, vs) ∧ vs ≠ [] := by
  have hf' : ∀ j r v, f j = .ok (r, v) → r.length ≤ j.length := fun j r v h => Nat.le_of_lt (hf j r v h)
  rw [C99_all_consuming_defined R tag (fun c _ => many1 (complete f) c), C37_of_v_partial R tag f i rem vs hf' he]
  constructor
  · rintro ⟨h, c, h1, h2, h3⟩
    obtain ⟨r, v, ws, g1, g2, rfl, _⟩ := (C99_many1_exact f hf' c [] vs).1 h3
    exact ⟨⟨h, c, h1, h2, .cons _ r v ws g1 (hf _ _ _ g1) (chain_items.2 g2)⟩, by simp⟩
  · rintro ⟨⟨h, c, h1, h2, h3⟩, hne⟩
    refine ⟨h, c, h1, h2, (C99_many1_exact f hf' c [] vs).2 ?_⟩
    cases h3 with
    | nil => exact absurd rfl hne
    | cons _ r v ws g1 g2 g3 => exact ⟨r, v, ws, g1, chain_items.1 g3, rfl, .inr he⟩

/-- The example of /repo/src/ber/multi.rs:108-117. -/
example : sequenceDefined .ber (many1 (complete (parseBerWithTag Tests.D0 2)))
    [0x30, 0x0a, 0x02, 0x03, 0x01, 0x00, 0x01, 0x02, 0x03, 0x01, 0x00, 0x00] =
    .ok ([], .fromSeq [.mk ⟨.universal, false, 2, .definite 3, some [2]⟩ (.integer [1, 0, 1]),
      .mk ⟨.universal, false, 2, .definite 3, some [2]⟩ (.integer [1, 0, 0])]) := rfl
example (D : Deps) : ∃ n, parseBerWithTag D 2 [] = .err (.incomplete n) := ⟨.size 1, rfl⟩

end Verif
