import Verif.SpecComb
import Verif.Props.Combinators
import Verif.Props.FailTyped
/-!
# Property C88: all answers of the container combinators
-/
namespace Verif
open Outcome Spec

section
variable {E O T : Type} [ParseErr E]

/-! ## Delimiting the element -/

theorem frameHeader_iff {R : Rules} {i rem : Bytes} {h : Header} :
    frameHeader R i = .ok (rem, h) ↔ ∃ hb, i = hb ++ rem ∧ HeaderBy R hb h := by
  cases R
  · exact headerFromBer_iff
  · exact headerFromDer_iff

theorem frameHeader_incomplete {R : Rules} {i : Bytes} {n : Nat} :
    frameHeader R i = .err (.incomplete (.size n)) ↔ HeaderCut false i (.need n) := by
  cases R
  · exact headerFromBer_incomplete
  · exact headerFromDer_incomplete

theorem frameHeader_error {R : Rules} {i : Bytes} {e : BerError} :
    frameHeader R i = .err (.error e) ↔ HeaderFails (indefiniteBy R) i e := by
  cases R
  · exact headerFromBer_error
  · exact headerFromDer_error

theorem frameHeader_err {R : Rules} {i : Bytes} {x : NomErr BerError} (h : frameHeader R i = .err x) :
    (∃ n, x = .incomplete (.size n)) ∨ ∃ e, x = .error e := by
  cases R
  · exact headerFromBer_err h
  · exact headerFromDer_err h

/-- For an indefinite length the element is delimited as by `Any::from_ber`. -/
theorem anyFromBer_after {hb rest : Bytes} {h : Header} (H : BerHeader hb h) (x : NomErr BerError) :
    anyFromBer (hb ++ rest) = .err x ↔ getObjectContent maxRecursion h rest = .err x := by
  unfold anyFromBer
  rw [berHeader_reads H]
  simp only [ok_bind]
  cases getObjectContent maxRecursion h rest <;> simp

theorem frame_err_iff {R : Rules} {i : Bytes} {x : NomErr E} :
    (frame R i : IRes E (Header × Bytes)) = .err x ↔ ∃ r, Unframed R i r ∧ x = r.toErr := by
  rw [frame_eq]
  constructor
  · intro hh
    rcases bind_eq_err.1 hh with h1 | ⟨⟨i1, h⟩, h1, h2⟩
    · cases hf : frameHeader R i with
      | err y =>
        rw [hf] at h1
        rcases frameHeader_err hf with ⟨n, rfl⟩ | ⟨e, rfl⟩
        · refine ⟨.need n, .cut i n (frameHeader_incomplete.1 hf), ?_⟩
          simpa [convertErr, Refusal.toErr, NomErr.map, eq_comm] using h1
        · refine ⟨.bad e, .header i e (frameHeader_error.1 hf), ?_⟩
          simpa [convertErr, Refusal.toErr, NomErr.map, eq_comm] using h1
      | ok _ => rw [hf] at h1; simp [convertErr] at h1
      | panic => rw [hf] at h1; simp [convertErr] at h1
      | diverge => rw [hf] at h1; simp [convertErr] at h1
    · have hf : frameHeader R i = .ok (i1, h) := by
        cases hf : frameHeader R i with
        | ok r => rw [hf] at h1; simpa [convertErr] using h1
        | err _ => rw [hf] at h1; simp [convertErr] at h1
        | panic => rw [hf] at h1; simp [convertErr] at h1
        | diverge => rw [hf] at h1; simp [convertErr] at h1
      obtain ⟨hb, rfl, H⟩ := frameHeader_iff.1 hf
      rcases bind_eq_err.1 h2 with h3 | ⟨_, _, h4⟩
      · simp only at h3
        cases hl : h.length with
        | definite l =>
          have h4 : (takeComplete l i1 : IRes E Bytes) = .err x := by
            cases R <;> simpa [frameContent, hl] using h3
          unfold takeComplete at h4
          split at h4
          · rename_i hlt
            simp only [err.injEq] at h4
            exact ⟨.ends i1, .contents hb i1 h l H hl hlt, h4.symm⟩
          · simp at h4
        | indefinite =>
          cases R with
          | der => exact absurd hl (DerHeader.definite H)
          | ber =>
            simp only [frameContent, hl] at h3
            cases hg : getObjectContent maxRecursion h i1 with
            | err y =>
              rw [hg] at h3
              rcases anyFromBer_err_cases ((anyFromBer_after H y).2 hg) with ⟨m, rfl, hc⟩ | ⟨e, rfl, he⟩
              · refine ⟨.need m, .insideCut hb i1 h m rfl H hl hc, ?_⟩
                simpa [convertErr, Refusal.toErr, NomErr.map, eq_comm] using h3
              · refine ⟨.bad e, .inside hb i1 h e rfl H hl he, ?_⟩
                simpa [convertErr, Refusal.toErr, NomErr.map, eq_comm] using h3
            | ok _ => rw [hg] at h3; simp [convertErr] at h3
            | panic => rw [hg] at h3; simp [convertErr] at h3
            | diverge => rw [hg] at h3; simp [convertErr] at h3
      · simp at h4
  · rintro ⟨r, hU, rfl⟩
    cases hU with
    | cut _ n hc => rw [frameHeader_incomplete.2 hc]; rfl
    | header _ e he => rw [frameHeader_error.2 he]; rfl
    | contents hb c h l H hl hlt =>
      rw [frameHeader_iff.2 ⟨hb, rfl, H⟩]
      cases R <;> simp [convertErr, frameContent, hl, takeComplete, hlt, Refusal.toErr]
    | insideCut hb rest h n hR H hl hc =>
      subst hR
      rw [frameHeader_iff (R := .ber).2 ⟨hb, rfl, H⟩]
      simp only [convertErr, mapErr_ok, ok_bind, frameContent, hl]
      rw [(anyFromBer_after H _).1 (anyFromBer_incomplete.2 hc)]
      rfl
    | inside hb rest h e hR H hl he =>
      subst hR
      rw [frameHeader_iff (R := .ber).2 ⟨hb, rfl, H⟩]
      simp only [convertErr, mapErr_ok, ok_bind, frameContent, hl]
      rw [(anyFromBer_after H _).1 (anyFromBer_error.2 he)]
      rfl

/-- A SEQUENCE of three octets of which two are present. -/
theorem unframed_small : Unframed .ber [0x30, 0x03, 0x02, 0x01] (.ends [0x02, 0x01]) :=
  .contents [0x30, 0x03] [0x02, 0x01] _ 3 (berHeader_read rfl) rfl (by decide)

/-- C88: when no element can be delimited, this is the answer of every container combinator, whatever the
closure. -/
theorem C88_unframed (R : Rules) (f : Bytes → Header → IRes E O) (i : Bytes) (r : Refusal)
    (hU : Unframed R i r) : container R f i = .err r.toErr := by
  unfold container
  rw [frame_err_iff.2 ⟨r, hU, rfl⟩]
  rfl

example (f : Bytes → Header → IRes BerError Nat) := C88_unframed .ber f _ _ unframed_small

/-- Error values that are never confused: used to read off the refusal. -/
local instance : ParseErr (BerError ⊕ Bytes × ErrorKind) where
  ofBer := .inl
  ofKind i k := .inr (i, k)

omit [ParseErr E] in
/-- C88: every input starts with an element or is specified as refused. -/
theorem C88_cover (R : Rules) (i : Bytes) :
    (∃ rem h c, FramedBy R i rem h c) ∨ ∃ r, Unframed R i r := by
  cases hf : (frame R i : IRes BerError (Header × Bytes)) with
  | ok r =>
    obtain ⟨rem, h, c⟩ := r
    exact .inl ⟨rem, h, c, frame_iff.1 hf⟩
  | err e => obtain ⟨r, hU, _⟩ := frame_err_iff.1 hf; exact .inr ⟨r, hU⟩
  | panic => have := returns_frame (E := BerError) R i; rw [hf] at this; exact absurd this id
  | diverge => have := returns_frame (E := BerError) R i; rw [hf] at this; exact absurd this id

omit [ParseErr E] in
/-- C88: not both, and with one refusal only. -/
theorem C88_unique (R : Rules) (i : Bytes) (r r' : Refusal) (hU : Unframed R i r) :
    (¬ ∃ rem h c, FramedBy R i rem h c) ∧ (Unframed R i r' → r' = r) := by
  have h1 := (frame_err_iff (E := BerError ⊕ Bytes × ErrorKind)).2 ⟨r, hU, rfl⟩
  constructor
  · rintro ⟨rem, h, c, hF⟩
    rw [frame_iff.2 hF] at h1
    simp at h1
  · intro hU'
    have h2 := (frame_err_iff (E := BerError ⊕ Bytes × ErrorKind)).2 ⟨r', hU', rfl⟩
    rw [h1] at h2
    cases r <;> cases r' <;> simp [Refusal.toErr, ParseErr.ofBer, ParseErr.ofKind] at h2 ⊢ <;> exact h2.symm

example := C88_unique .ber _ _ (.ends [0x02, 0x01]) unframed_small

/-! ## The items of `SEQUENCE OF` and `SET OF` -/

theorem many0_items {f : Bytes → IRes E T} {c q : Bytes} {vs : List T} (hI : Items f c vs q) (hS : Stuck f q) {fuel : Nat}
    (hfuel : c.length < fuel) :
    many0 (complete (cut f)) fuel c =
      match f q with
      | .err (.incomplete _) => .ok (q, vs)
      | .err (.error e) => .err (.failure e)
      | .err (.failure e) => .err (.failure e)
      | .ok _ => .err (.error (ParseErr.ofKind q .many0))
      | .panic => .panic
      | .diverge => .diverge := by
  induction hI generalizing fuel with
  | nil q =>
    obtain ⟨fuel, rfl⟩ : ∃ k, fuel = k + 1 := ⟨fuel - 1, by omega⟩
    unfold many0
    cases hq : f q with
    | ok r =>
      have := hS r.1 r.2 hq
      simp [complete, cut, hq, this]
    | err e => cases e <;> simp [complete, cut, hq]
    | panic => simp [complete, cut, hq]
    | diverge => simp [complete, cut, hq]
  | cons i rem v vs q h1 h2 _ ih =>
    obtain ⟨fuel, rfl⟩ : ∃ k, fuel = k + 1 := ⟨fuel - 1, by omega⟩
    unfold many0
    rw [complete_cut_ok.2 h1]
    simp only
    rw [if_neg (by omega), ih hS (by omega)]
    cases hq : f q with
    | ok r => rfl
    | err e => cases e <;> rfl
    | panic => rfl
    | diverge => rfl

/-- An INTEGER followed by an empty BIT STRING, which is not read. -/
theorem items_small : Items (parseBerRecursive Tests.D0 50) [0x02, 0x01, 0x05, 0x03, 0x00]
    [.mk ⟨.universal, false, 2, .definite 1, some [2]⟩ (.integer [5])] [0x03, 0x00] :=
  .cons _ [0x03, 0x00] _ _ _ rfl (by decide) (.nil _)

theorem stuck_small : Stuck (parseBerRecursive Tests.D0 50) [0x03, 0x00] := fun _ _ h => by cases h

/-- C88: `all_consuming(many0(complete(cut(f))))`, once the items are read, answers as specified; there is
never a remainder. -/
theorem C88_items (f : Bytes → IRes E T) (c q : Bytes) (vs : List T) (hI : Items f c vs q) (hS : Stuck f q) :
    ofSubparser f c = (itemsAnswer f vs q >>? fun vs => .ok ([], vs)) := by
  unfold ofSubparser allConsuming itemsAnswer
  rw [many0_items hI hS (Nat.lt_succ_self _)]
  cases hq : f q with
  | ok r => rfl
  | err e =>
    cases e with
    | incomplete n => cases q <;> simp
    | error e => rfl
    | failure e => rfl
  | panic => rfl
  | diverge => rfl

example := C88_items (parseBerRecursive Tests.D0 50) _ _ _ items_small stuck_small

omit [ParseErr E] in
/-- C88: for every closure and all contents octets there is exactly one list of items after which no item is
read. -/
theorem C88_items_exist (f : Bytes → IRes E T) (hf : ∀ j r v, f j = .ok (r, v) → r.length ≤ j.length)
    (c : Bytes) : ∃ vs q, Items f c vs q ∧ Stuck f q := by
  generalize hn : c.length = n
  induction n using Nat.strongRecOn generalizing c with
  | _ n ih =>
    by_cases hS : Stuck f c
    · exact ⟨[], c, .nil c, hS⟩
    · simp only [Stuck, Classical.not_forall] at hS
      obtain ⟨rem, v, h1, h2⟩ := hS
      have h3 := hf c rem v h1
      obtain ⟨vs, q, hI, hS⟩ := ih rem.length (by omega) rem rfl
      exact ⟨v :: vs, q, .cons c rem v vs q h1 (by omega) hI, hS⟩

example := C88_items_exist (parseBerWithTag Tests.D0 2) (fun _ _ _ h => (local_parseBerWithTag _ 2).length_le h)
  [0x02, 0x01, 0x05, 0x03, 0x00]

omit [ParseErr E] in
/-- C88: the items read before the first that is not read are determined by the octets. -/
theorem C88_items_unique (f : Bytes → IRes E T) (c q q' : Bytes) (vs vs' : List T)
    (hI : Items f c vs q) (hS : Stuck f q) (hI' : Items f c vs' q') (hS' : Stuck f q') :
    vs' = vs ∧ q' = q := by
  induction hI generalizing vs' with
  | nil q =>
    cases hI' with
    | nil => exact ⟨rfl, rfl⟩
    | cons _ rem v vs _ h1 h2 _ => have := hS rem v h1; omega
  | cons i rem v vs q h1 h2 _ ih =>
    cases hI' with
    | nil => have := hS' rem v h1; omega
    | cons _ rem' v' vs' _ h1' h2' h3' =>
      rw [h1] at h1'
      simp only [ok.injEq, Prod.mk.injEq] at h1'
      obtain ⟨rfl, rfl⟩ := h1'
      obtain ⟨rfl, rfl⟩ := ih vs' hS h3'
      exact ⟨rfl, rfl⟩

example := C88_items_unique (parseBerRecursive Tests.D0 50) _ _ _ _ _ items_small stuck_small items_small stuck_small

/-- C88: `parse_*_sequence_of_v`, `parse_*_set_of_v`: the complete table. -/
theorem C88_of_v (R : Rules) (tag : Nat) (f : Bytes → IRes E T)
    (i : Bytes) :
    (∀ r, Unframed R i r → ofV R tag f i = .err r.toErr) ∧
    (∀ rem h c, FramedBy R i rem h c → h.tag ≠ tag →
      ofV R tag f i = .err (.error (ParseErr.ofBer (.unexpectedTag (some tag) h.tag)))) ∧
    (∀ rem h c vs q, FramedBy R i rem h c → h.tag = tag → Items f c vs q → Stuck f q →
      ofV R tag f i = (itemsAnswer f vs q >>? fun vs => .ok (rem, vs))) := by
  refine ⟨fun r hU => ?_, fun rem h c hF ht => ?_, fun rem h c vs q hF ht hI hS => ?_⟩
  · unfold ofV definedG; exact C88_unframed R _ i r hU
  · unfold ofV
    rw [C38_defined R tag _ i rem c h hF, if_neg ht]
  · unfold ofV
    rw [C38_defined R tag _ i rem c h hF, if_pos ht, C88_items f c q vs hI hS]
    cases itemsAnswer f vs q <;> rfl

example := (C88_of_v .ber 16 (parseBerRecursive Tests.D0 50) [0x30, 0x05, 0x02, 0x01, 0x05, 0x03, 0x00, 9]).2.2 [9] _ _ _ _
  ((frame_iff (E := BerError)).1 rfl) rfl items_small stuck_small

/-- C88: an item that is rejected, after items that were read: the whole parse fails, without the possibility
to try another parser. -/
theorem C88_of_v_bad_item (R : Rules) (tag : Nat) (f : Bytes → IRes E T)
    (i rem c q : Bytes) (h : Header) (vs : List T)
    (e : E) (hF : FramedBy R i rem h c) (ht : h.tag = tag) (hI : Items f c vs q) (he : f q = .err (.error e)) :
    ofV R tag f i = .err (.failure e) := by
  have hS : Stuck f q := fun r v hh => by rw [he] at hh; simp at hh
  rw [(C88_of_v R tag f i).2.2 rem h c vs q hF ht hI hS]
  simp [itemsAnswer, he]

example := C88_of_v_bad_item .ber 16 (parseBerRecursive Tests.D0 50) [0x30, 0x05, 0x02, 0x01, 0x05, 0x03, 0x00, 9] [9] _ _ _ _ _
  ((frame_iff (E := BerError)).1 rfl) rfl items_small rfl

/-- C88: an item cut by the end of the contents: an error that blames the end of the input; `Incomplete` is
not answered. -/
theorem C88_of_v_cut_item (R : Rules) (tag : Nat) (f : Bytes → IRes E T)
    (i rem c q : Bytes) (h : Header) (vs : List T)
    (n : Needed) (hF : FramedBy R i rem h c) (ht : h.tag = tag) (hI : Items f c vs q) (hq : q ≠ [])
    (he : f q = .err (.incomplete n)) :
    ofV R tag f i = .err (.error (ParseErr.ofKind q .eof)) := by
  have hS : Stuck f q := fun r v hh => by rw [he] at hh; simp at hh
  rw [(C88_of_v R tag f i).2.2 rem h c vs q hF ht hI hS]
  simp [itemsAnswer, he, hq]

example := C88_of_v_cut_item .ber 16 (parseBerRecursive Tests.D0 50) [0x30, 0x05, 0x02, 0x01, 0x05, 0x02, 0x01, 9] [9] _
  [0x02, 0x01] _ _ _ ((frame_iff (E := BerError)).1 rfl) rfl (.cons _ [0x02, 0x01] _ _ _ rfl (by decide) (.nil _)) (by simp) rfl

/-! ## The other combinators on input without element -/

/-- C88: `parse_*_sequence_defined_g`, `parse_*_set_defined_g`, `parse_*_tagged_explicit_g`,
`parse_*_tagged_implicit_g`: input without element.  With C38_defined, C39_explicit and C40_implicit_partial the
tables of these functions are complete, by C88_cover. -/
theorem C88_g_unframed (R : Rules) (tag : Nat) (f : Bytes → Header → IRes E O)
    (g : Bytes → Header → Nat → IRes E O) (i : Bytes) (r : Refusal) (hU : Unframed R i r) :
    definedG R tag f i = .err r.toErr ∧ taggedExplicitG R tag f i = .err r.toErr ∧
    taggedImplicitG R tag g i = .err r.toErr :=
  ⟨C88_unframed R _ i r hU, C88_unframed R _ i r hU, C88_unframed R _ i r hU⟩

example (f : Bytes → Header → IRes BerError Nat) (g : Bytes → Header → Nat → IRes BerError Nat) :=
  C88_g_unframed .ber 16 f g _ _ unframed_small

end

/-- C88: `parse_*_sequence_of`, `parse_*_set_of`. -/
theorem C88_object_versions (R : Rules) (f : Bytes → IRes BerError BerObject)
    (i : Bytes) :
    (∀ r, Unframed R i r → sequenceOf R f i = .err r.toErr ∧ setOf R f i = .err r.toErr) ∧
    (∀ rem h c, FramedBy R i rem h c →
      (h.tag ≠ 16 → sequenceOf R f i = .err (.error (.unexpectedTag (some 16) h.tag))) ∧
      (h.tag ≠ 17 → setOf R f i = .err (.error (.unexpectedTag (some 17) h.tag)))) ∧
    (∀ rem h c vs q, FramedBy R i rem h c → Items f c vs q → Stuck f q →
      (h.tag = 16 → sequenceOf R f i = (itemsAnswer f vs q >>? fun vs => .ok (rem, .fromSeq vs))) ∧
      (h.tag = 17 → setOf R f i = (itemsAnswer f vs q >>? fun vs => .ok (rem, .fromSet vs)))) := by
  have h1 := C88_of_v R Tag.sequence f i
  have h2 := C88_of_v R Tag.set f i
  refine ⟨fun r hU => ⟨?_, ?_⟩, fun rem h c hF => ⟨fun ht => ?_, fun ht => ?_⟩,
    fun rem h c vs q hF hI hS => ⟨fun ht => ?_, fun ht => ?_⟩⟩
  · unfold sequenceOf mapRes; rw [h1.1 r hU]; rfl
  · unfold setOf mapRes; rw [h2.1 r hU]; rfl
  · unfold sequenceOf mapRes; rw [h1.2.1 rem h c hF ht]; rfl
  · unfold setOf mapRes; rw [h2.2.1 rem h c hF ht]; rfl
  · unfold sequenceOf mapRes
    rw [h1.2.2 rem h c vs q hF ht hI hS]
    cases itemsAnswer f vs q <;> rfl
  · unfold setOf mapRes
    rw [h2.2.2 rem h c vs q hF ht hI hS]
    cases itemsAnswer f vs q <;> rfl

example := (C88_object_versions .ber (parseBerRecursive Tests.D0 50) _).1 _ unframed_small
example := ((C88_object_versions .ber (parseBerRecursive Tests.D0 50) [0x30, 0x05, 0x02, 0x01, 0x05, 0x03, 0x00, 9]).2.2 [9] _ _ _ _
  ((frame_iff (E := BerError)).1 rfl) items_small stuck_small).1 rfl

/-- C88: the items read by `parse_ber`, `parse_der` and the functions for one type: a rejected item is a
failure, a cut item is `Error(Eof)`, however deep the fault. -/
theorem C88_library_items (D : Deps) (d t : Nat) (R : Rules) (tag : Nat) (i rem c q : Bytes) (h : Header)
    (vs : List BerObject) (hF : FramedBy R i rem h c) (ht : h.tag = tag) :
    (Items (parseBerRecursive D (d + 1)) c vs q →
      (∀ e, Rejected D (d + 1) q e → ofV R tag (parseBerRecursive D (d + 1)) i = .err (.failure e)) ∧
      (∀ n, q ≠ [] → Cut false 50 q (.need n) →
        ofV R tag (parseBerRecursive D (d + 1)) i = .err (.error (.nomError .eof)))) ∧
    (Items (parseDerRecursive D d) c vs q →
      (∀ e, DerRejected D d q e → ofV R tag (parseDerRecursive D d) i = .err (.failure e)) ∧
      (∀ n, q ≠ [] → DerNeeds d q n →
        ofV R tag (parseDerRecursive D d) i = .err (.error (.nomError .eof)))) ∧
    (Items (parseBerWithTag D t) c vs q →
      (∀ e, TypedRejected D t q e → ofV R tag (parseBerWithTag D t) i = .err (.failure e)) ∧
      (∀ n, q ≠ [] → TypedNeeds t q n →
        ofV R tag (parseBerWithTag D t) i = .err (.error (.nomError .eof)))) ∧
    (Items (parseDerWithTag D t) c vs q →
      (∀ e, DerTypedRejected D t q e → ofV R tag (parseDerWithTag D t) i = .err (.failure e)) ∧
      (∀ n, q ≠ [] → DerTypedNeeds t q n →
        ofV R tag (parseDerWithTag D t) i = .err (.error (.nomError .eof)))) :=
  ⟨fun hI => ⟨fun e he => C88_of_v_bad_item R tag _ i rem c q h vs e hF ht hI ((C84_rejected_iff D _ q e).2 he),
      fun n hq hc => C88_of_v_cut_item R tag _ i rem c q h vs _ hF ht hI hq ((C81_incomplete_iff D d q n).2 hc)⟩,
    fun hI => ⟨fun e he => C88_of_v_bad_item R tag _ i rem c q h vs e hF ht hI ((C85_rejected_iff D _ q e).2 he),
      fun n hq hc => C88_of_v_cut_item R tag _ i rem c q h vs _ hF ht hI hq ((C85_incomplete_iff D d q n).2 hc)⟩,
    fun hI => ⟨fun e he => C88_of_v_bad_item R tag _ i rem c q h vs e hF ht hI ((C86_ber_rejected_iff D _ q e).2 he),
      fun n hq hc => C88_of_v_cut_item R tag _ i rem c q h vs _ hF ht hI hq ((C86_ber_incomplete_iff D t q n).2 hc)⟩,
    fun hI => ⟨fun e he => C88_of_v_bad_item R tag _ i rem c q h vs e hF ht hI ((C86_der_rejected_iff D _ q e).2 he),
      fun n hq hc => C88_of_v_cut_item R tag _ i rem c q h vs _ hF ht hI hq ((C86_der_incomplete_iff D t q n).2 hc)⟩⟩

example := ((C88_library_items Tests.D0 49 2 .ber 16 [0x30, 0x05, 0x02, 0x01, 0x05, 0x03, 0x00, 9] [9] _ _ _ _
  ((frame_iff (E := BerError)).1 rfl) rfl).1 items_small).1 _ ((C84_rejected_iff Tests.D0 50 _ .berValueError).1 rfl)

/-! ## The answer depends on the function -/

/-- C88: the same missing octets are asked for (`Incomplete`) by `parse_ber` and `parse_der`, but are an error
at the end of input for the container combinators: they cannot be used on streams. -/
theorem C88_definite_cut (D : Deps) (d : Nat) (R : Rules) {E O : Type} [ParseErr E]
    (f : Bytes → Header → IRes E O) (hb c : Bytes) (h : Header) (l : Nat) (H : DerHeader hb h)
    (hl : h.length = .definite l) (hc : c.length < l) :
    parseBerRecursive D (d + 1) (hb ++ c) = .err (.incomplete (.size (l - c.length))) ∧
      container R f (hb ++ c) = .err (.error (ParseErr.ofKind c .eof)) :=
  ⟨(C81_incomplete_iff D d _ _).2 (.contents 49 l hb c h H.toBerHeader hl hc),
    C88_unframed R f _ (.ends c) (.contents hb c h l
      (match R with | .ber => H.toBerHeader | .der => H) hl hc)⟩

/-! ## Examples -/

example : Unframed .ber [0x30, 0x03, 0x02, 0x01] (.ends [0x02, 0x01]) :=
  .contents [0x30, 0x03] [0x02, 0x01] ⟨.universal, true, 16, .definite 3, some [0x30]⟩ 3
    ((headerFromBer_iff (i := [0x30, 0x03]) (rem := [])).1 rfl |> fun ⟨hb, e, H⟩ => by simp at e; subst e; exact H)
    rfl (by decide)
example : Items (parseBerRecursive Tests.D0 50) [0x02, 0x01, 0x05, 0x03, 0x00]
    [.mk ⟨.universal, false, 2, .definite 1, some [2]⟩ (.integer [5])] [0x03, 0x00] :=
  .cons _ [0x03, 0x00] _ _ _ rfl (by decide) (.nil _)
example : ofV .ber 16 (parseBerRecursive Tests.D0 50) [0x30, 0x05, 0x02, 0x01, 0x05, 0x03, 0x00] =
    .err (.failure .berValueError) := rfl
example : ofV .ber 16 (parseBerRecursive Tests.D0 50) [0x30, 0x04, 0x02, 0x01, 0x05, 0x02] =
    .err (.error (.nomError .eof)) := rfl
example : ofV .ber 16 (parseBerRecursive Tests.D0 50) [0x30, 0x04, 0x02, 0x01, 0x05] =
    .err (.error (.nomError .eof)) := rfl
example : ofV .ber 16 (parseBerRecursive Tests.D0 50) [0x30, 0x80, 0x02, 0x01, 0x05] =
    .err (.incomplete (.size 1)) := rfl

end Verif
