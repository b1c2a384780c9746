import Verif.SpecSchemaFail
import Verif.Props.Schema
/-!
# Properties C109 and C110: all answers of composed parsers
-/
namespace Verif
open Outcome Spec

theorem any_refused (D : Deps) (R : Rules) (i : Bytes) (x : NomErr BerError) :
    Schema.run D R .any i = .err x ↔ AnyRefused D R i x := by
  cases R
  · simp only [Schema.run, AnyRefused]
    constructor
    · intro h
      rcases C84_answers D 50 i x h with ⟨n, rfl⟩ | ⟨e, rfl⟩
      · exact .inl ⟨n, rfl, (C81_incomplete_iff D 49 i n).1 h⟩
      · exact .inr ⟨e, rfl, (C84_rejected_iff D 50 i e).1 h⟩
    · rintro (⟨n, rfl, h⟩ | ⟨e, rfl, h⟩)
      · exact (C81_incomplete_iff D 49 i n).2 h
      · exact (C84_rejected_iff D 50 i e).2 h
  · exact parseDerRecursive_err D 50 i x

theorem typed_refused (D : Deps) (R : Rules) (tag : Nat) (i : Bytes) (x : NomErr BerError) :
    Schema.run D R (.typed tag) i = .err x ↔ TypedRefused D R tag i x := by
  cases R
  · exact parseBerWithTag_err D tag i x
  · exact parseDerWithTag_err D tag i x

theorem alt_refused {p : Nat → Bytes → IRes BerError BerObject} {i : Bytes} {F : Nat → NomErr BerError → Prop}
    (hF : ∀ t x, p t i = .err x ↔ F t x) (hn : ∀ t e, ¬ F t (.failure e)) (tag : Nat) (tags : List Nat)
    (x : NomErr BerError) : alt p tag tags i = .err x ↔ ChoiceRefused F (tag :: tags) x := by
  induction tags generalizing tag with
  | nil =>
    simp only [alt, hF]
    constructor
    · intro h; exact ⟨[], tag, [], rfl, by simp, h, .inl rfl⟩
    · rintro ⟨pre, t, post, h1, _, h3, _⟩
      cases pre with
      | nil => simp only [List.nil_append, List.cons.injEq] at h1; rw [h1.1]; exact h3
      | cons a pre => simp at h1
  | cons t ts ih =>
    have hgo : alt p tag (t :: ts) i = .err x ↔
        (∃ e, F tag (.error e)) ∧ alt p t ts i = .err x ∨ (F tag x ∧ ∃ n, x = .incomplete n) := by
      simp only [alt]
      cases hp : p tag i with
      | ok r =>
        simp only [reduceCtorEq, false_iff, not_or, not_and]
        refine ⟨fun ⟨e, he⟩ => ?_, fun hx => ?_⟩
        · rw [← hF, hp] at he; simp at he
        · rw [← hF, hp] at hx; simp at hx
      | panic =>
        simp only [reduceCtorEq, false_iff, not_or, not_and]
        refine ⟨fun ⟨e, he⟩ => ?_, fun hx => ?_⟩
        · rw [← hF, hp] at he; simp at he
        · rw [← hF, hp] at hx; simp at hx
      | diverge =>
        simp only [reduceCtorEq, false_iff, not_or, not_and]
        refine ⟨fun ⟨e, he⟩ => ?_, fun hx => ?_⟩
        · rw [← hF, hp] at he; simp at he
        · rw [← hF, hp] at hx; simp at hx
      | err y =>
        have hy := (hF tag y).1 hp
        have huniq : ∀ z, F tag z → z = y := by
          intro z hz
          rw [← hF, hp] at hz
          simpa using hz.symm
        cases y with
        | error e =>
          simp only
          constructor
          · intro h; exact .inl ⟨⟨e, hy⟩, h⟩
          · rintro (⟨_, h⟩ | ⟨h, n, rfl⟩)
            · exact h
            · have := huniq _ h; simp at this
        | incomplete n =>
          simp only [err.injEq]
          constructor
          · rintro rfl; exact .inr ⟨hy, n, rfl⟩
          · rintro (⟨⟨e, he⟩, _⟩ | ⟨h, _⟩)
            · have := huniq _ he; simp at this
            · exact (huniq _ h).symm
        | failure e => exact absurd hy (hn tag e)
    rw [hgo, ih]
    constructor
    · rintro (⟨he, pre, u, post, h1, h2, h3, h4⟩ | ⟨hx, n, rfl⟩)
      · refine ⟨tag :: pre, u, post, by rw [h1]; rfl, ?_, h3, h4⟩
        intro q hq
        rcases List.mem_cons.1 hq with rfl | hq
        · exact he
        · exact h2 q hq
      · exact ⟨[], tag, t :: ts, rfl, by simp, hx, .inr ⟨n, rfl⟩⟩
    · rintro ⟨pre, u, post, h1, h2, h3, h4⟩
      cases pre with
      | nil =>
        simp only [List.nil_append, List.cons.injEq] at h1
        obtain ⟨rfl, rfl⟩ := h1
        rcases h4 with h4 | ⟨n, rfl⟩
        · simp at h4
        · exact .inr ⟨h3, n, rfl⟩
      | cons a pre =>
        simp only [List.cons_append, List.cons.injEq] at h1
        obtain ⟨rfl, h1⟩ := h1
        exact .inl ⟨h2 tag (by simp), pre, u, post, h1, fun q hq => h2 q (by simp [hq]), h3, h4⟩

/-- A combinator that frames an element and checks the tag number. -/
theorem definedG_refused {R : Rules} {tag : Nat} {f : Bytes → Header → IRes BerError (List BerObject)}
    {F : Bytes → NomErr BerError → Prop} (hf : ∀ i h x, f i h = .err x ↔ F i x)
    (g : List BerObject → BerObject) (i : Bytes) (x : NomErr BerError) :
    mapRes g (definedG R tag f) i = .err x ↔
      HeadRefused R tag i x ∨ ∃ rem h c, FramedBy R i rem h c ∧ h.tag = tag ∧ F c x := by
  have hm : mapRes g (definedG R tag f) i = .err x ↔ definedG R tag f i = .err x := by
    unfold mapRes
    constructor
    · intro h
      rcases bind_eq_err.1 h with h | ⟨_, _, h⟩
      · exact h
      · simp at h
    · intro h; rw [h]; rfl
  rw [hm]
  rcases C88_cover R i with ⟨rem, h, c, hF⟩ | ⟨r, hU⟩
  · have hu : ∀ r, ¬ Unframed R i r := fun r hU => (C88_unique R i r r hU).1 ⟨rem, h, c, hF⟩
    have hq : ∀ rem' h' c', FramedBy R i rem' h' c' → rem' = rem ∧ h' = h ∧ c' = c := by
      intro rem' h' c' hF'
      have e1 := (frame_iff (E := BerError)).2 hF
      rw [(frame_iff (E := BerError)).2 hF'] at e1
      simpa using e1
    rw [C38_defined R tag f i rem c h hF]
    constructor
    · intro hh
      split at hh
      · rename_i ht
        rcases bind_eq_err.1 hh with hh | ⟨_, _, hh⟩
        · exact .inr ⟨rem, h, c, hF, ht, (hf _ _ _).1 hh⟩
        · simp at hh
      · rename_i ht
        simp only [err.injEq] at hh
        exact .inl (.inr ⟨rem, h, c, hF, ht, hh.symm⟩)
    · rintro ((⟨r, hU, _⟩ | ⟨rem', h', c', hF', ht, rfl⟩) | ⟨rem', h', c', hF', ht, hc⟩)
      · exact absurd hU (hu r)
      · obtain ⟨rfl, rfl, rfl⟩ := hq _ _ _ hF'
        rw [if_neg ht]; rfl
      · obtain ⟨rfl, rfl, rfl⟩ := hq _ _ _ hF'
        rw [if_pos ht, (hf _ h' _).2 hc]; rfl
  · have hu := C88_unique R i r
    rw [show definedG R tag f i = .err r.toErr from C88_unframed R _ i r hU]
    constructor
    · intro hh
      simp only [err.injEq] at hh
      exact .inl (.inl ⟨r, hU, hh.symm⟩)
    · rintro ((⟨r', hU', rfl⟩ | ⟨rem', h', c', hF', _⟩) | ⟨rem', h', c', hF', _⟩)
      · rw [(hu r' hU).2 hU']
      · exact absurd ⟨rem', h', c', hF'⟩ (hu r hU).1
      · exact absurd ⟨rem', h', c', hF'⟩ (hu r hU).1

/-- The items of a SEQUENCE OF or SET OF. -/
theorem items_refused {f : Bytes → IRes BerError BerObject} {P : Bytes → Bytes → BerObject → Prop}
    {F : Bytes → NomErr BerError → Prop} (hlen : ∀ j r v, f j = .ok (r, v) → r.length ≤ j.length)
    (hr : ∀ j, (f j).Returns) (hP : ∀ i rem v, f i = .ok (rem, v) ↔ P i rem v)
    (hF : ∀ i x, f i = .err x ↔ F i x) (c : Bytes) (x : NomErr BerError) :
    ofSubparser f c = .err x ↔ ItemsRefused P F c x := by
  have hB : ∀ {c q : Bytes}, Before P c q ↔ ∃ vs, Items f c vs q := by
    intro c q
    constructor
    · intro h
      induction h with
      | nil q => exact ⟨[], .nil q⟩
      | cons i rem v q h1 h2 _ ih =>
        obtain ⟨vs, ih⟩ := ih
        exact ⟨v :: vs, .cons i rem v vs q ((hP _ _ _).2 h1) h2 ih⟩
    · rintro ⟨vs, h⟩
      induction h with
      | nil q => exact .nil q
      | cons i rem v vs q h1 h2 _ ih => exact .cons i rem v q ((hP _ _ _).1 h1) h2 ih
  obtain ⟨vs, q, hI, hS⟩ := C88_items_exist f hlen c
  rw [C88_items f c q vs hI hS]
  have hfin : (itemsAnswer f vs q >>? fun vs => (.ok ([], vs) : IRes BerError (List BerObject))) = .err x ↔
      (∃ e, (F q (.error e) ∨ F q (.failure e)) ∧ x = .failure e) ∨
      (q ≠ [] ∧ (∃ n, F q (.incomplete n)) ∧ x = .error (.nomError .eof)) ∨
      ((∃ rem v, P q rem v ∧ rem.length = q.length) ∧ x = .error (.nomError .many0)) := by
    simp only [← hF, ← hP]
    unfold itemsAnswer
    have := hr q
    cases hq : f q with
    | ok r =>
      obtain ⟨r, v⟩ := r
      have hl := hS r v hq
      simp only [err_bind, err.injEq, reduceCtorEq, or_self, false_and, exists_false, and_false, false_or, ok.injEq,
        Prod.mk.injEq]
      constructor
      · rintro rfl; exact ⟨⟨r, v, ⟨rfl, rfl⟩, hl⟩, rfl⟩
      · rintro ⟨_, rfl⟩; rfl
    | err y =>
      cases y with
      | incomplete n =>
        by_cases hn : q = []
        · simp [hn]
        · simp only [hn, if_false, err_bind, err.injEq, reduceCtorEq, NomErr.incomplete.injEq, or_self, false_and,
            exists_false, not_false_eq_true, true_and, ne_eq, false_or, or_false]
          constructor
          · rintro rfl; exact ⟨⟨n, rfl⟩, rfl⟩
          · rintro ⟨_, rfl⟩; rfl
      | error e => simp [eq_comm]
      | failure e => simp [eq_comm]
    | panic => rw [hq] at this; exact absurd this id
    | diverge => rw [hq] at this; exact absurd this id
  rw [hfin]
  constructor
  · intro h; exact ⟨q, hB.2 ⟨vs, hI⟩, h⟩
  · rintro ⟨q', hq', h⟩
    obtain ⟨vs', hI'⟩ := hB.1 hq'
    have hS' : Stuck f q' := by
      rcases h with ⟨e, h | h, _⟩ | ⟨_, ⟨n, h⟩, _⟩ | ⟨⟨r, v, h, hl⟩, _⟩
      · rw [← hF] at h; intro r v hh; rw [h] at hh; simp at hh
      · rw [← hF] at h; intro r v hh; rw [h] at hh; simp at hh
      · rw [← hF] at h; intro r v hh; rw [h] at hh; simp at hh
      · rw [← hP] at h; intro r' v' hh; rw [h] at hh
        simp only [ok.injEq, Prod.mk.injEq] at hh
        rw [← hh.1]; exact hl
    obtain ⟨_, rfl⟩ := C88_items_unique f c q' q vs' vs hI' hS' hI hS
    exact h

/-- A combinator on an element: the answer for the input with and without one. -/
theorem framed_cases (R : Rules) (i : Bytes) (x : NomErr BerError) {A : Bytes → Header → Bytes → Prop}
    {run : Outcome (NomErr BerError) (Bytes × BerObject)}
    (hU : ∀ r, Unframed R i r → run = .err r.toErr)
    (hF : ∀ rem h c, FramedBy R i rem h c → (run = .err x ↔ A rem h c)) :
    run = .err x ↔ (∃ r, Unframed R i r ∧ x = r.toErr) ∨ ∃ rem h c, FramedBy R i rem h c ∧ A rem h c := by
  rcases C88_cover R i with ⟨rem, h, c, hf⟩ | ⟨r, hu⟩
  · rw [hF _ _ _ hf]
    constructor
    · intro ha; exact .inr ⟨rem, h, c, hf, ha⟩
    · rintro (⟨r, hU, _⟩ | ⟨rem', h', c', hf', ha⟩)
      · exact absurd ⟨rem, h, c, hf⟩ (C88_unique R i r r hU).1
      · exact (hF _ _ _ hf).1 ((hF _ _ _ hf').2 ha)
  · rw [hU r hu]
    constructor
    · intro hh
      simp only [err.injEq] at hh
      exact .inl ⟨r, hu, hh.symm⟩
    · rintro (⟨r', hu', rfl⟩ | ⟨rem', h', c', hf', ha⟩)
      · rw [(C88_unique R i r r' hu).2 hu']
      · exact absurd ⟨rem', h', c', hf'⟩ (C88_unique R i r r hu).1

theorem explicit_refused {R : Rules} {tag : Nat} {f : Bytes → IRes BerError BerObject}
    {F : Bytes → NomErr BerError → Prop} (hF : ∀ i x, f i = .err x ↔ F i x) (i : Bytes) (x : NomErr BerError) :
    taggedExplicit R tag f i = .err x ↔ (∃ r, Unframed R i r ∧ x = r.toErr) ∨
      ∃ rem h c, FramedBy R i rem h c ∧
        ((h.cls = .universal ∧ x = .error (.unexpectedClass none .universal)) ∨
          (h.cls ≠ .universal ∧ h.tag ≠ tag ∧ x = .error (.unexpectedTag (some tag) h.tag)) ∨
          (h.cls ≠ .universal ∧ h.tag = tag ∧ h.constructed = false ∧ x = .error .constructExpected) ∨
          (h.cls ≠ .universal ∧ h.tag = tag ∧ h.constructed = true ∧ F c x)) := by
  refine framed_cases R i x (fun r hU => by unfold taggedExplicit taggedExplicitG; exact C88_unframed R _ i r hU)
    fun rem h c hf => ?_
  unfold taggedExplicit
  rw [C39_explicit R tag _ i rem c h hf]
  by_cases h1 : h.cls = .universal
  · simp only [h1, if_true, err.injEq, ne_eq, not_true_eq_false, false_and, or_false, true_and]
    exact eq_comm
  · by_cases h2 : h.tag = tag
    · cases h3 : h.constructed with
      | false => simp [h1, h2, ParseErr.ofBer, eq_comm]
      | true =>
        simp only [h1, h2, if_false, ne_eq, not_true_eq_false, false_and, not_false_eq_true, true_and, false_or,
          reduceCtorEq, ← hF]
        cases f c <;> simp
    · simp only [h1, h2, if_false, ne_eq, not_false_eq_true, if_true, err.injEq, false_and, true_and, false_or,
        or_false]
      exact eq_comm

theorem implicit_refused {D : Deps} {R : Rules} {tag t : Nat} (i : Bytes) (x : NomErr BerError) :
    Schema.run D R (.implicit tag t) i = .err x ↔ HeadRefused R tag i x ∨
      ∃ rem h c, FramedBy R i rem h c ∧ h.tag = tag ∧ ContentsRefused D R t h c x := by
  have key : ∀ (f : Bytes → Header → Nat → IRes BerError Content),
      (∀ rem h c, FramedBy R i rem h c → (f c h 50 = .err x ↔ ContentsRefused D R t h c x)) →
      (taggedImplicit R tag f i = .err x ↔ HeadRefused R tag i x ∨
        ∃ rem h c, FramedBy R i rem h c ∧ h.tag = tag ∧ ContentsRefused D R t h c x) := by
    intro f hf
    rw [framed_cases R i x (run := taggedImplicit R tag f i) (A := fun _ h c => (h.tag ≠ tag ∧ x = .error (.unexpectedTag (some tag) h.tag)) ∨
      (h.tag = tag ∧ ContentsRefused D R t h c x))
      (fun r hU => by unfold taggedImplicit taggedImplicitG; exact C88_unframed R _ i r hU) ?_]
    · unfold HeadRefused
      constructor
      · rintro (h | ⟨rem, h, c, hF, h1 | h1⟩)
        · exact .inl (.inl h)
        · exact .inl (.inr ⟨rem, h, c, hF, h1⟩)
        · exact .inr ⟨rem, h, c, hF, h1⟩
      · rintro ((h | ⟨rem, h, c, hF, h1⟩) | ⟨rem, h, c, hF, h1⟩)
        · exact .inl h
        · exact .inr ⟨rem, h, c, hF, .inl h1⟩
        · exact .inr ⟨rem, h, c, hF, .inr h1⟩
    · intro rem h c hF
      unfold taggedImplicit
      rw [C40_implicit_partial R tag _ i rem c h hF]
      by_cases h2 : h.tag = tag
      · simp only [h2, ne_eq, not_true_eq_false, if_false, false_and, true_and, false_or]
        rw [← hf rem h c hF]
        cases f c h 50 <;> simp
      · simp [h2, ParseErr.ofBer, eq_comm]
  cases R with
  | ber =>
    refine key (parseBerContent D t) fun rem h c _ => ?_
    exact parseBerContent_err D t 50 h c x
  | der =>
    refine key (parseDerContent D t) fun rem h c hF => ?_
    have hlc : h.length = .definite c.length := by obtain ⟨_, _, _, hl⟩ := hF; exact hl
    unfold ContentsRefused
    constructor
    · intro hh
      rcases C89_answers D t 50 h c x (.inr hh) with ⟨n, rfl⟩ | ⟨e, rfl⟩
      · rcases (C89_der_incomplete_iff D t 50 h c n).1 hh with ⟨h1, h2⟩ | ⟨h1, h2, h3, _, rfl⟩
        · rw [hlc] at h1; simp only [Length.definite.injEq] at h1; omega
        · exact .inl ⟨rfl, h1, h2, h3⟩
      · rcases (C89_der_rejected_iff D t 50 h c e).1 hh with ⟨h1, _⟩ | ⟨c', rest, rfl, h2, h3⟩
        · rw [hlc] at h1; simp at h1
        · rw [hlc] at h2
          simp only [Length.definite.injEq, List.length_append] at h2
          have : rest = [] := List.length_eq_zero_iff.1 (by omega)
          subst this
          exact .inr ⟨e, rfl, by simpa using h3⟩
    · rintro (⟨rfl, h1, h2, rfl⟩ | ⟨e, rfl, h1⟩)
      · exact (C89_der_incomplete_iff D t 50 h [] 1).2 (.inr ⟨h1, h2, rfl, by simpa using hlc, rfl⟩)
      · exact (C89_der_rejected_iff D t 50 h c e).2 (.inr ⟨c, [], by simp, hlc, h1⟩)

mutual
theorem schema_refuses (D : Deps) (hT : TimesKnown D) (R : Rules) : ∀ (s : Schema) (i : Bytes)
    (x : NomErr BerError), s.run D R i = .err x ↔ Refuses D R s i x
  | .any, i, x => any_refused D R i x
  | .typed t, i, x => typed_refused D R t i x
  | .choice t ts, i, x => by
    have hn : ∀ t e, ¬ TypedRefused D R t i (.failure e) := by
      intro t e h
      cases R <;> simp [TypedRefused] at h
    simp only [Refuses]
    cases R
    · exact alt_refused (F := fun t => TypedRefused D .ber t i) (fun t x => typed_refused D .ber t i x) hn t ts x
    · exact alt_refused (F := fun t => TypedRefused D .der t i) (fun t x => typed_refused D .der t i x) hn t ts x
  | .sequenceOf s, i, x => by
    simp only [Schema.run, Refuses, Verif.sequenceOf]
    exact definedG_refused (fun c _ x => items_refused (schema_length D R s) (schema_total D R s)
      (schema_iff D hT R s) (schema_refuses D hT R s) c x) _ i x
  | .setOf s, i, x => by
    simp only [Schema.run, Refuses, Verif.setOf]
    exact definedG_refused (fun c _ x => items_refused (schema_length D R s) (schema_total D R s)
      (schema_iff D hT R s) (schema_refuses D hT R s) c x) _ i x
  | .sequence l, i, x => by
    simp only [Schema.run, Refuses, sequenceDefined]
    exact definedG_refused (fun c _ x => schema_all_refuses D hT R l c x) _ i x
  | .set l, i, x => by
    simp only [Schema.run, Refuses, setDefined]
    exact definedG_refused (fun c _ x => schema_all_refuses D hT R l c x) _ i x
  | .explicit t s, i, x => by
    simp only [Schema.run, Refuses]
    exact explicit_refused (schema_refuses D hT R s) i x
  | .implicit t y, i, x => by
    simp only [Refuses]
    exact implicit_refused i x
  | .optional s, i, x => by
    simp only [Schema.run, Refuses, iff_false]
    exact C41_optional_never_err _ i x
  | .explicitOptional t s, i, x => by
    simp only [Schema.run, Refuses, iff_false]
    unfold parseExplicitOptional
    exact C41_optional_never_err _ i x
theorem schema_all_refuses (D : Deps) (hT : TimesKnown D) (R : Rules) : ∀ (l : List Schema) (i : Bytes)
    (x : NomErr BerError), Schema.runAll D R l i = .err x ↔ RefusesAll D R l i x
  | [], i, x => by simp [Schema.runAll, RefusesAll]
  | s :: l, i, x => by
    simp only [Schema.runAll, RefusesAll]
    rw [bind_eq_err, schema_refuses D hT R s i x]
    constructor
    · rintro (h | ⟨⟨mid, v⟩, h1, h2⟩)
      · exact .inl h
      · rcases bind_eq_err.1 h2 with h2 | ⟨_, _, h2⟩
        · exact .inr ⟨mid, v, (schema_iff D hT R s _ _ _).1 h1, (schema_all_refuses D hT R l _ _).1 h2⟩
        · simp at h2
    · rintro (h | ⟨mid, v, h1, h2⟩)
      · exact .inl h
      · refine .inr ⟨(mid, v), (schema_iff D hT R s _ _ _).2 h1, ?_⟩
        rw [(schema_all_refuses D hT R l _ _).2 h2]
        rfl
end

/-! ## C109 -/

/-- C109: a parser composed of the functions of the library answers with an error exactly for the octets specified
as refused, and with the specified error; for every composition, both for BER and for DER. -/
theorem C109_exact (D : Deps) (hT : TimesKnown D) (R : Rules) (s : Schema) (i : Bytes) (x : NomErr BerError) :
    s.run D R i = .err x ↔ Refuses D R s i x := schema_refuses D hT R s i x

/-- C109: every input is accepted or refused. -/
theorem C109_cover (D : Deps) (hT : TimesKnown D) (R : Rules) (s : Schema) (i : Bytes) :
    (∃ rem o, Accepts D R s i rem o) ∨ ∃ x, Refuses D R s i x := by
  have ht := schema_total D R s i
  cases hr : s.run D R i with
  | ok r => exact .inl ⟨r.1, r.2, (schema_iff D hT R s i r.1 r.2).1 hr⟩
  | err x => exact .inr ⟨x, (schema_refuses D hT R s i x).1 hr⟩
  | panic => rw [hr] at ht; exact absurd ht id
  | diverge => rw [hr] at ht; exact absurd ht id

example := C109_cover Tests.D0 timesKnown_D0 .der (.sequence [.typed 1, .sequenceOf (.typed 2)]) [0x30, 0x03, 0x01, 0x01, 0xff]

/-- C109: not both, and with one error only. -/
theorem C109_unique (D : Deps) (hT : TimesKnown D) (R : Rules) (s : Schema) (i : Bytes) (x y : NomErr BerError)
    (hx : Refuses D R s i x) : (∀ rem o, ¬ Accepts D R s i rem o) ∧ (Refuses D R s i y → y = x) := by
  have h1 := (C109_exact D hT R s i x).2 hx
  constructor
  · intro rem o ha
    rw [(C96_exact D hT R s i rem o).2 ha] at h1
    simp at h1
  · intro hy
    rw [(C109_exact D hT R s i y).2 hy] at h1
    simpa using h1

example := C109_unique Tests.D0 timesKnown_D0 .ber (.explicit 3 (.choice 12 [19])) [0xa3, 0x03, 0x02, 0x01, 0x05] _
  (.error (.unexpectedTag (some 19) 2)) ((C109_exact _ timesKnown_D0 _ _ _ (.error (.unexpectedTag (some 19) 2))).1 rfl)

mutual
/-- A SEQUENCE OF or SET OF, outside optional parts. -/
def Spec.HasOf : Schema → Prop
  | .sequenceOf _ | .setOf _ => True
  | .any | .typed _ | .choice _ _ | .implicit _ _ | .optional _ | .explicitOptional _ _ => False
  | .explicit _ s => HasOf s
  | .sequence l | .set l => HasOfAll l
def Spec.HasOfAll : List Schema → Prop
  | [] => False
  | s :: l => HasOf s ∨ HasOfAll l
end

theorem refusal_ne_failure {r : Refusal} {e : BerError} : (NomErr.failure e) ≠ r.toErr := by
  cases r <;> simp [Refusal.toErr]

theorem headRefused_failure {R : Rules} {t : Nat} {i : Bytes} {e : BerError} :
    ¬ HeadRefused R t i (.failure e) := by
  rintro (⟨r, _, h⟩ | ⟨_, _, _, _, _, h⟩)
  · exact refusal_ne_failure h
  · simp at h

theorem typedRefused_failure {D : Deps} {R : Rules} {t : Nat} {i : Bytes} {e : BerError} :
    ¬ TypedRefused D R t i (.failure e) := by
  intro h
  cases R <;> simp [TypedRefused] at h

mutual
theorem refuses_failure (D : Deps) (R : Rules) : ∀ (s : Schema) (i : Bytes) (e : BerError),
    Refuses D R s i (.failure e) → HasOf s
  | .any, i, e, h => by cases R <;> simp [Refuses, AnyRefused] at h
  | .typed t, i, e, h => by simp only [Refuses] at h; exact absurd h typedRefused_failure
  | .choice t ts, i, e, h => by
    simp only [Refuses] at h
    obtain ⟨_, _, _, _, _, h, _⟩ := h
    exact absurd h typedRefused_failure
  | .sequenceOf s, i, e, h => by simp only [HasOf]
  | .setOf s, i, e, h => by simp only [HasOf]
  | .sequence l, i, e, h => by
    simp only [Refuses] at h
    rcases h with h | ⟨_, _, c, _, _, h⟩
    · exact absurd h headRefused_failure
    · simp only [HasOf]; exact refuses_all_failure D R l c e h
  | .set l, i, e, h => by
    simp only [Refuses] at h
    rcases h with h | ⟨_, _, c, _, _, h⟩
    · exact absurd h headRefused_failure
    · simp only [HasOf]; exact refuses_all_failure D R l c e h
  | .explicit t s, i, e, h => by
    simp only [Refuses, reduceCtorEq, and_false, false_or] at h
    rcases h with ⟨r, _, h⟩ | ⟨_, _, c, _, _, _, _, h⟩
    · exact absurd h refusal_ne_failure
    · simp only [HasOf]; exact refuses_failure D R s c e h
  | .implicit t y, i, e, h => by
    simp only [Refuses] at h
    rcases h with h | ⟨_, _, _, _, _, h⟩
    · exact absurd h headRefused_failure
    · cases R <;> simp [ContentsRefused] at h
  | .optional s, i, e, h => by simp only [Refuses] at h
  | .explicitOptional t s, i, e, h => by simp only [Refuses] at h
theorem refuses_all_failure (D : Deps) (R : Rules) : ∀ (l : List Schema) (i : Bytes) (e : BerError),
    RefusesAll D R l i (.failure e) → HasOfAll l
  | [], i, e, h => by simp only [RefusesAll] at h
  | s :: l, i, e, h => by
    simp only [RefusesAll] at h
    simp only [HasOfAll]
    rcases h with h | ⟨mid, v, _, h⟩
    · exact .inl (refuses_failure D R s i e h)
    · exact .inr (refuses_all_failure D R l mid e h)
end

/-- C109: `Err::Failure`, which keeps a caller from trying another parser, comes from the items of a SEQUENCE OF or
SET OF only; inside an optional part it is not seen. -/
theorem C109_failure (D : Deps) (hT : TimesKnown D) (R : Rules) (s : Schema) (i : Bytes) (e : BerError)
    (h : s.run D R i = .err (.failure e)) : HasOf s :=
  refuses_failure D R s i e ((C109_exact D hT R s i _).1 h)

example : Refuses Tests.D0 .der (.sequence [.typed 1, .sequenceOf (.typed 2)])
    [0x30, 0x09, 0x01, 0x01, 0xff, 0x30, 0x04, 0x02, 0x02, 0x00, 0x05]
    (.failure (.derConstraintFailed .integerLeadingZeroes)) :=
  (C109_exact _ timesKnown_D0 _ _ _ _).1 rfl
example : Refuses Tests.D0 .ber (.sequence [.typed 1, .sequenceOf (.typed 2)])
    [0x30, 0x07, 0x01, 0x01, 0xff, 0x30, 0x02, 0x02, 0x02, 0x00, 0x05] (.error (.nomError .eof)) :=
  (C109_exact _ timesKnown_D0 _ _ _ _).1 rfl
example : Refuses Tests.D0 .ber (.explicit 3 (.choice 12 [19])) [0xa3, 0x03, 0x02, 0x01, 0x05]
    (.error (.unexpectedTag (some 19) 2)) :=
  (C109_exact _ timesKnown_D0 _ _ _ _).1 rfl

/-! ## C110: a request for more input -/

/-- C110: a request for more input can be met: some octets put after the input get another answer. -/
def C110Statement : Prop :=
  ∀ (D : Deps) (R : Rules) (s : Schema) (i : Bytes) (n : Needed), s.run D R i = .err (.incomplete n) →
    ∃ t, ∀ m, s.run D R (i ++ t) ≠ .err (.incomplete m)

/-- Parsers that delimit one element and run the closure on its contents. -/
def Spec.OneElement : Schema → Prop
  | .sequenceOf _ | .setOf _ | .sequence _ | .set _ | .explicit _ _ | .implicit _ _ => True
  | _ => False

theorem framedBy_extend {R : Rules} {i rem c : Bytes} {h : Header} (hF : FramedBy R i rem h c) (t : Bytes) :
    FramedBy R (i ++ t) (rem ++ t) h c := by
  cases R with
  | ber => obtain ⟨e, h1, h2⟩ := hF; exact ⟨e, by rw [h1]; simp, h2⟩
  | der => obtain ⟨hb, h1, h2⟩ := hF; exact ⟨hb, by rw [h1]; simp, h2⟩

theorem container_err_extend {O : Type} {R : Rules} {f : Bytes → Header → IRes BerError O} {i rem c : Bytes} {h : Header}
    (hF : FramedBy R i rem h c) (t : Bytes) (x : NomErr BerError) :
    container R f (i ++ t) = .err x ↔ container R f i = .err x := by
  rw [C38_container R f i rem c h hF, C38_container R f _ _ c h (framedBy_extend hF t)]
  cases f c h <;> simp

theorem mapRes_err {α β : Type} {g : α → β} {p : Bytes → IRes BerError α} {i : Bytes} {x : NomErr BerError} :
    mapRes g p i = .err x ↔ p i = .err x := by
  unfold mapRes
  cases p i <;> simp

/-- C110: once the element is complete, the error is the answer whatever follows. -/
theorem C110_fixed (D : Deps) (R : Rules) (s : Schema) (hs : OneElement s) (i rem c : Bytes) (h : Header)
    (hF : FramedBy R i rem h c) (t : Bytes) (x : NomErr BerError) :
    s.run D R (i ++ t) = .err x ↔ s.run D R i = .err x := by
  cases s with
  | any => exact absurd hs id
  | typed _ => exact absurd hs id
  | choice _ _ => exact absurd hs id
  | optional _ => exact absurd hs id
  | explicitOptional _ _ => exact absurd hs id
  | sequenceOf s =>
    simp only [Schema.run, Verif.sequenceOf, mapRes_err, ofV, definedG]
    exact container_err_extend hF t x
  | setOf s =>
    simp only [Schema.run, Verif.setOf, mapRes_err, ofV, definedG]
    exact container_err_extend hF t x
  | sequence l =>
    simp only [Schema.run, sequenceDefined, mapRes_err, definedG]
    exact container_err_extend hF t x
  | set l =>
    simp only [Schema.run, setDefined, mapRes_err, definedG]
    exact container_err_extend hF t x
  | explicit tag s =>
    simp only [Schema.run, taggedExplicit, taggedExplicitG]
    exact container_err_extend hF t x
  | implicit tag y =>
    cases R <;>
    · simp only [Schema.run, taggedImplicit, taggedImplicitG]
      exact container_err_extend hF t x

example := (C110_fixed Tests.D0 .ber (.sequence [.typed 2]) trivial [0x30, 0x02, 0x02, 0x01] [] _ _
  ((frame_iff (E := BerError)).1 rfl) [0x05] (.incomplete (.size 1))).2 rfl

/-- C110 is false: `30 01 02` as a SEQUENCE with one INTEGER.  The INTEGER is cut by the end of the SEQUENCE; one
octet more is asked for, whatever follows the SEQUENCE. -/
theorem C110_counterexample : ¬ C110Statement := by
  intro H
  have key : (Schema.sequence [.typed 2]).run Tests.D0 .ber [0x30, 0x01, 0x02] = .err (.incomplete (.size 1)) := rfl
  obtain ⟨t, ht⟩ := H Tests.D0 .ber (.sequence [.typed 2]) [0x30, 0x01, 0x02] _ key
  exact ht _ ((C110_fixed Tests.D0 .ber (.sequence [.typed 2]) trivial [0x30, 0x01, 0x02] [] [0x02]
    ⟨.universal, true, 16, .definite 1, some [0x30]⟩ ((frame_iff (E := BerError)).1 rfl) t _).2 key)

/-! ### Octets that settle the question -/

theorem base256_ff_pos (ds : Bytes) (k : Nat) (hk : 0 < k) : 0 < base256 (ds ++ List.replicate k 0xff) := by
  obtain ⟨k, rfl⟩ : ∃ j, k = j + 1 := ⟨k - 1, by omega⟩
  rw [base256_append, List.replicate_succ]
  simp only [base256]
  have : 0 < 256 ^ (List.replicate k (0xff : UInt8)).length := Nat.pow_pos (by decide)
  have h2 : (0xff : UInt8).toNat = 255 := rfl
  rw [h2]
  omega

/-- A header that is cut can be continued to one that is wrong or announces contents octets. -/
theorem headerCut_continue {q : Bytes} {n : Nat} (hc : HeaderCut false q (.need n)) :
    ∃ t, (∃ e, ∀ R, HeaderFails R (q ++ t) e) ∨
      ∃ h l, DerHeader (q ++ t) h ∧ h.length = .definite l ∧ 0 < l := by
  generalize ha : CutAnswer.need n = a at hc
  cases hc with
  | empty =>
    exact ⟨[0x30, 0xff], .inl ⟨_, fun R => .reserved [0x30] [] _ _ _ (.low 0x30 (by decide)) (by decide)⟩⟩
  | tag => simp at ha
  | noLength _ cls k num hi hl => exact ⟨[0xff], .inl ⟨_, fun R => .reserved q [] cls k num hi hl⟩⟩
  | length id cls k num b ds hi hl h1 h2 h3 _ =>
    generalize hj : b.toNat - 128 - ds.length = j
    have hj0 : 0 < j := by omega
    have hlen : (ds ++ List.replicate j (0xff : UInt8)).length = b.toNat - 128 := by simp; omega
    have hq : id ++ b :: ds ++ List.replicate j (0xff : UInt8) = id ++ b :: (ds ++ List.replicate j 0xff) := by simp
    by_cases hv : base256 (ds ++ List.replicate j (0xff : UInt8)) < 2 ^ 64
    · refine ⟨List.replicate j 0xff, .inr ⟨⟨cls, k, num % 2 ^ 32, .definite _, some id⟩, _, ?_, rfl,
        base256_ff_pos ds j hj0⟩⟩
      rw [hq]
      refine ⟨⟨⟨id, b :: (ds ++ List.replicate j 0xff), num, rfl, hi, .long b _ h1 h2 hlen, rfl, hl, rfl⟩, ?_, by simp⟩,
        by simp⟩
      intro m hm
      simp only [Length.definite.injEq] at hm
      omega
    · refine ⟨List.replicate j 0xff, .inl ⟨.invalidLength, fun R => ?_⟩⟩
      rw [hq]
      have := HeaderFails.huge (R := R) id (ds ++ List.replicate j 0xff) [] cls k num b hi hl h1 h2 hlen (by omega)
      simpa using this

theorem badTag_fails (n : Nat) : FrameFails n [0x1f, 0x80, 0x80, 0x80, 0x80, 0x80] .invalidTag :=
  .header n _ _ (.tag 0x1f _ (by decide) (by decide))

/-- An element that is cut can be continued to one that cannot be delimited or, if the length is known, to a
complete one. -/
theorem cut_continue {n m : Nat} {q : Bytes} (hc : Cut false n q (.need m)) :
    ∃ t, (∃ e, FrameFails n (q ++ t) e) ∨
      ∃ hb c h l, q ++ t = hb ++ c ∧ BerHeader hb h ∧ h.length = .definite l ∧ c.length = l ∧ 0 < l ∧ 0 < n := by
  generalize ha : CutAnswer.need m = a at hc
  induction hc with
  | header n q a _ hh =>
    subst ha
    obtain ⟨t, ⟨e, he⟩ | ⟨h, l, H, hl, hp⟩⟩ := headerCut_continue hh
    · exact ⟨t, .inl ⟨e, .header n _ e (he _)⟩⟩
    · cases n with
      | zero => exact ⟨t, .inl ⟨_, by simpa using FrameFails.depth (q ++ t) [] h H.1⟩⟩
      | succ n =>
        refine ⟨t ++ List.replicate l 0, .inr ⟨q ++ t, List.replicate l 0, h, l, by simp, H.1, hl, by simp, hp, by omega⟩⟩
  | contents n l hb c h H hl hlt =>
    exact ⟨List.replicate (l - c.length) 0, .inr ⟨hb, c ++ List.replicate (l - c.length) 0, h, l, by simp, H, hl,
      by simp; omega, by omega, by omega⟩⟩
  | inside n hb es q h a H hl hes _ ih =>
    obtain ⟨t, ⟨e, he⟩ | ⟨hb', c, h', l, e1, H', hl', hc', hp, hn⟩⟩ := ih ha
    · refine ⟨t, .inl ⟨e, ?_⟩⟩
      have : hb ++ (es.flatten ++ q) ++ t = hb ++ (es.flatten ++ (q ++ t)) := by simp
      rw [this]
      exact .inside n hb es (q ++ t) h e H hl hes he
    · obtain ⟨k, rfl⟩ : ∃ k, n = k + 1 := ⟨n - 1, by omega⟩
      refine ⟨t ++ [0x1f, 0x80, 0x80, 0x80, 0x80, 0x80], .inl ⟨.invalidTag, ?_⟩⟩
      have : hb ++ (es.flatten ++ q) ++ (t ++ [0x1f, 0x80, 0x80, 0x80, 0x80, 0x80]) =
          hb ++ ((es ++ [q ++ t]).flatten ++ [0x1f, 0x80, 0x80, 0x80, 0x80, 0x80]) := by simp
      rw [this]
      refine .inside _ hb (es ++ [q ++ t]) _ h _ H hl ?_ (badTag_fails _)
      intro x hx
      rcases List.mem_append.1 hx with hx | hx
      · exact hes x hx
      · simp only [List.mem_singleton] at hx
        subst hx
        rw [e1]
        refine .definite k l hb' c h' H' hl' hc' ?_
        rw [looseEoc_iff H' hl' hc']
        omega

theorem headerBy_unique {R : Rules} {hb hb' x x' : Bytes} {h h' : Header} (H : HeaderBy R hb h)
    (H' : HeaderBy R hb' h') (e : hb ++ x = hb' ++ x') : hb = hb' ∧ h = h' ∧ x = x' := by
  have hB : BerHeader hb h := by cases R; exact H; exact H.1
  have hB' : BerHeader hb' h' := by cases R; exact H'; exact H'.1
  obtain ⟨h1, h2⟩ := berHeader_unique hB hB' e
  subst h1
  exact ⟨rfl, h2, List.append_cancel_left e⟩

/-- The header at the front is wrong, or the element is complete and something follows it, or it is of indefinite
length and nothing is missing. -/
def Settled (R : Rules) (j : Bytes) : Prop :=
  (∃ e, HeaderFails (indefiniteBy R) j e) ∨
    ∃ hb rest h, j = hb ++ rest ∧ HeaderBy R hb h ∧
      ((∃ l, h.length = .definite l ∧ l < rest.length) ∨
        (R = .ber ∧ h.length = .indefinite ∧ ∀ n, ¬ Cut false 50 j (.need n)))

theorem settle (R : Rules) (i : Bytes) : ∃ t, Settled R (i ++ t) := by
  have hd : ∀ (hb rest : Bytes) (h : Header) (l : Nat), HeaderBy R hb h → h.length = .definite l →
      ∃ t, Settled R (hb ++ rest ++ t) := by
    intro hb rest h l H hl
    exact ⟨List.replicate (l + 1) 0, .inr ⟨hb, rest ++ List.replicate (l + 1) 0, h, by simp, H,
      .inl ⟨l, hl, by simp; omega⟩⟩⟩
  have hdet : (∃ r, frameHeader R i = .ok r) ∨ ∃ x, frameHeader R i = .err x := by
    cases R
    · have := returns_headerFromBer i
      cases h : headerFromBer i with
      | ok r => exact .inl ⟨r, h⟩
      | err x => exact .inr ⟨x, h⟩
      | panic => rw [h] at this; exact absurd this id
      | diverge => rw [h] at this; exact absurd this id
    · have := returns_headerFromDer i
      cases h : headerFromDer i with
      | ok r => exact .inl ⟨r, h⟩
      | err x => exact .inr ⟨x, h⟩
      | panic => rw [h] at this; exact absurd this id
      | diverge => rw [h] at this; exact absurd this id
  rcases hdet with ⟨⟨rest, h⟩, hr⟩ | ⟨x, hx⟩
  · obtain ⟨hb, rfl, H⟩ := frameHeader_iff.1 hr
    cases hl : h.length with
    | definite l => exact hd hb rest h l H hl
    | indefinite =>
      cases R with
      | der => exact absurd hl (DerHeader.definite H)
      | ber =>
        by_cases hn : ∃ n, Cut false 50 (hb ++ rest) (.need n)
        · obtain ⟨n, hn⟩ := hn
          obtain ⟨t, ⟨e, he⟩ | ⟨hb', c, h', l, e1, H', hl', _⟩⟩ := cut_continue hn
          · refine ⟨t, .inr ⟨hb, rest ++ t, h, by simp, H, .inr ⟨rfl, hl, fun m hm => ?_⟩⟩⟩
            have h1 := anyFromBer_error.2 he
            rw [anyFromBer_incomplete.2 hm] at h1
            simp at h1
          · rw [List.append_assoc] at e1
            obtain ⟨_, rfl, _⟩ := headerBy_unique (R := .ber) H H' e1
            rw [hl] at hl'
            simp at hl'
        · exact ⟨[], .inr ⟨hb, rest, h, by simp, H, .inr ⟨rfl, hl, fun m hm => hn ⟨m, by simpa using hm⟩⟩⟩⟩
  · rcases frameHeader_err hx with ⟨n, rfl⟩ | ⟨e, rfl⟩
    · obtain ⟨t, ⟨e, he⟩ | ⟨h, l, H, hl, hp⟩⟩ := headerCut_continue (frameHeader_incomplete.1 hx)
      · exact ⟨t, .inl ⟨e, he _⟩⟩
      · have H' : HeaderBy R (i ++ t) h := by cases R; exact H.1; exact H
        obtain ⟨t', h'⟩ := hd (i ++ t) [] h l H' hl
        exact ⟨t ++ t', by simpa using h'⟩
    · exact ⟨[], .inl ⟨e, by simpa using frameHeader_error.1 hx⟩⟩

/-- What is settled is not cut in the header. -/
theorem settled_header {R : Rules} {j : Bytes} (hs : Settled R j) (n : Nat) : ¬ HeaderCut false j (.need n) := by
  intro hc
  have h1 := (frameHeader_incomplete (R := R)).2 hc
  rcases hs with ⟨e, he⟩ | ⟨hb, rest, h, rfl, H, _⟩
  · rw [frameHeader_error.2 he] at h1; simp at h1
  · rw [frameHeader_iff.2 ⟨hb, rfl, H⟩] at h1; simp at h1

/-- Its header, if there is one, with the octets after it. -/
theorem settled_after {R : Rules} {hb rest : Bytes} {h : Header} (hs : Settled R (hb ++ rest)) (H : HeaderBy R hb h) :
    (∃ l, h.length = .definite l ∧ l < rest.length) ∨
      (R = .ber ∧ h.length = .indefinite ∧ ∀ n, ¬ Cut false 50 (hb ++ rest) (.need n)) := by
  rcases hs with ⟨e, he⟩ | ⟨hb', rest', h', e1, H', h1⟩
  · have h1 := frameHeader_error.2 he
    rw [frameHeader_iff.2 ⟨hb, rfl, H⟩] at h1
    simp at h1
  · obtain ⟨rfl, rfl, rfl⟩ := headerBy_unique H H' e1
    exact h1

theorem settled_any (D : Deps) {R : Rules} {j : Bytes} (hs : Settled R j) (n : Nat) :
    ¬ AnyRefused D R j (.incomplete (.size n)) := by
  cases R with
  | ber =>
    rintro (⟨m, _, hc⟩ | ⟨e, he, _⟩)
    · cases hc with
      | header _ _ _ _ hh => exact settled_header hs m hh
      | contents _ l hb c h H hl hlt =>
        rcases settled_after hs H with ⟨l', hl', h1⟩ | ⟨_, hl', _⟩ <;> rw [hl] at hl' <;> simp at hl'
        omega
      | inside _ hb es q h _ H hl hes hc =>
        rcases settled_after hs H with ⟨l', hl', h1⟩ | ⟨_, _, hn⟩
        · rw [hl] at hl'; simp at hl'
        · exact hn m (.inside _ hb es q h _ H hl hes hc)
    · simp at he
  | der =>
    rintro (⟨m, _, hc⟩ | ⟨e, he, _⟩)
    · cases hc with
      | header _ _ hh => exact settled_header hs m hh
      | foreign hb c h l H hl _ _ _ hlt =>
        rcases settled_after hs H with ⟨l', hl', h1⟩ | ⟨h0, _⟩
        · rw [hl] at hl'; simp at hl'; omega
        · simp at h0
      | universal hb c h l H hl _ _ hlt =>
        rcases settled_after hs H with ⟨l', hl', h1⟩ | ⟨h0, _⟩
        · rw [hl] at hl'; simp at hl'; omega
        · simp at h0
      | emptyBits _ h H hl _ _ _ =>
        rcases settled_after (R := .der) (rest := []) (by simpa using hs) H with ⟨l', hl', h1⟩ | ⟨h0, _⟩
        · simp at h1
        · simp at h0
    · simp at he

theorem settled_typed (D : Deps) {R : Rules} {j : Bytes} (hs : Settled R j) (tag n : Nat) :
    ¬ TypedRefused D R tag j (.incomplete (.size n)) := by
  cases R with
  | ber =>
    rintro (⟨m, _, hc⟩ | ⟨e, he, _⟩)
    · cases hc with
      | header _ _ hh => exact settled_header hs m hh
      | definite hb c h l H _ hl _ hlt =>
        rcases settled_after hs H with ⟨l', hl', h1⟩ | ⟨_, hl', _⟩ <;> rw [hl] at hl' <;> simp at hl'
        omega
      | indefinite hb rest h _ H _ hl hc =>
        rcases settled_after hs H with ⟨l', hl', h1⟩ | ⟨_, _, hn⟩
        · rw [hl] at hl'; simp at hl'
        · exact hn m hc
    · simp at he
  | der =>
    rintro (⟨m, _, hc⟩ | ⟨e, he, _⟩)
    · cases hc with
      | header _ _ hh => exact settled_header hs m hh
      | contents hb c h l H _ hl hlt =>
        rcases settled_after hs H with ⟨l', hl', h1⟩ | ⟨h0, _⟩
        · rw [hl] at hl'; simp at hl'; omega
        · simp at h0
      | emptyBits _ h H _ hl _ _ =>
        rcases settled_after (R := .der) (rest := []) (by simpa using hs) H with ⟨l', hl', h1⟩ | ⟨h0, _⟩
        · simp at h1
        · simp at h0
    · simp at he

/-- Input that does not start with an element can be continued such that every combinator answers `Error`. -/
theorem unframed_continue {R : Rules} {i : Bytes} {n : Nat} (hU : Unframed R i (.need n)) :
    ∃ t e r, Unframed R (i ++ t) r ∧ (r.toErr : NomErr BerError) = .error e := by
  cases hU with
  | cut _ _ hc =>
    obtain ⟨t, ⟨e, he⟩ | ⟨h, l, H, hl, hp⟩⟩ := headerCut_continue hc
    · exact ⟨t, e, .bad e, .header _ e (he _), rfl⟩
    · refine ⟨t, .nomError .eof, .ends [], ?_, rfl⟩
      have := Unframed.contents (R := R) (i ++ t) [] h l (by cases R; exact H.1; exact H) hl (by simpa using hp)
      simpa using this
  | insideCut hb rest h _ hR H hl hc =>
    subst hR
    obtain ⟨t, ⟨e, he⟩ | ⟨hb', c, h', l, e1, H', hl', _⟩⟩ := cut_continue hc
    · refine ⟨t, e, .bad e, ?_, rfl⟩
      rw [List.append_assoc] at he ⊢
      exact .inside hb (rest ++ t) h e rfl H hl he
    · rw [List.append_assoc] at e1
      obtain ⟨_, rfl, _⟩ := headerBy_unique (R := .ber) H H' e1
      rw [hl] at hl'
      simp at hl'

/-- On input without element every such parser gives this answer. -/
theorem oneElement_unframed (D : Deps) (R : Rules) (s : Schema) (hs : OneElement s) (i : Bytes) (r : Refusal)
    (hU : Unframed R i r) : s.run D R i = .err r.toErr := by
  cases s with
  | any => exact absurd hs id
  | typed _ => exact absurd hs id
  | choice _ _ => exact absurd hs id
  | optional _ => exact absurd hs id
  | explicitOptional _ _ => exact absurd hs id
  | sequenceOf s =>
    simp only [Schema.run, Verif.sequenceOf, mapRes_err, ofV, definedG]
    exact C88_unframed R _ i r hU
  | setOf s =>
    simp only [Schema.run, Verif.setOf, mapRes_err, ofV, definedG]
    exact C88_unframed R _ i r hU
  | sequence l =>
    simp only [Schema.run, sequenceDefined, mapRes_err, definedG]
    exact C88_unframed R _ i r hU
  | set l =>
    simp only [Schema.run, setDefined, mapRes_err, definedG]
    exact C88_unframed R _ i r hU
  | explicit tag s =>
    simp only [Schema.run, taggedExplicit, taggedExplicitG]
    exact C88_unframed R _ i r hU
  | implicit tag y =>
    cases R <;>
    · simp only [Schema.run, taggedImplicit, taggedImplicitG]
      exact C88_unframed _ _ i r hU

/-- C110, what holds for a parser that delimits one element: a request for more input can be met exactly if the
element is not complete yet.  Missing: the other requests, which are final (C110_fixed). -/
theorem C110_exact_partial (D : Deps) (R : Rules) (s : Schema) (hs : OneElement s) (i : Bytes) (n : Needed)
    (h : s.run D R i = .err (.incomplete n)) :
    (∃ t, ∀ m, s.run D R (i ++ t) ≠ .err (.incomplete m)) ↔ ¬ ∃ rem h c, FramedBy R i rem h c := by
  constructor
  · rintro ⟨t, ht⟩ ⟨rem, hd, c, hF⟩
    exact ht n ((C110_fixed D R s hs i rem c hd hF t _).2 h)
  · intro hn
    rcases C88_cover R i with hF | ⟨r, hU⟩
    · exact absurd hF hn
    · rw [oneElement_unframed D R s hs i r hU] at h
      cases r with
      | need k =>
        obtain ⟨t, e, r, hU', he⟩ := unframed_continue hU
        refine ⟨t, fun m hm => ?_⟩
        rw [oneElement_unframed D R s hs _ r hU', he] at hm
        simp at hm
      | bad e => simp [Refusal.toErr] at h
      | ends _ => simp [Refusal.toErr] at h

/-- C110: the parsers without a list of components and without tags ask only for what can be met. -/
def Spec.AsksWell : Schema → Prop
  | .any | .typed _ | .choice _ _ | .sequenceOf _ | .setOf _ | .optional _ | .explicitOptional _ _ => True
  | .sequence _ | .set _ | .explicit _ _ | .implicit _ _ => False

/-- C110, what holds: C110Statement for elements of any type, for the functions for one type, for a choice of
them, and for SEQUENCE OF and SET OF of anything.  Missing: the others, for which C110_exact_partial tells the
requests that can be met. -/
theorem C110_partial (D : Deps) (hT : TimesKnown D) (R : Rules) (s : Schema) (hs : AsksWell s) (i : Bytes)
    (n : Needed) (h : s.run D R i = .err (.incomplete n)) :
    ∃ t, ∀ m, s.run D R (i ++ t) ≠ .err (.incomplete m) := by
  have hof : ∀ (c : Bytes) (P : Bytes → Bytes → BerObject → Prop) (F : Bytes → NomErr BerError → Prop),
      ¬ ItemsRefused P F c (.incomplete n) := by
    rintro c P F ⟨q, _, h1⟩
    simp at h1
  cases s with
  | any =>
    obtain ⟨t, ht⟩ := settle R i
    refine ⟨t, fun m hm => ?_⟩
    rw [any_refused] at hm
    cases m with
    | size m => exact settled_any D ht m hm
    | unknown => cases R <;> simp [AnyRefused] at hm
  | typed tag =>
    obtain ⟨t, ht⟩ := settle R i
    refine ⟨t, fun m hm => ?_⟩
    rw [typed_refused] at hm
    cases m with
    | size m => exact settled_typed D ht tag m hm
    | unknown => cases R <;> simp [TypedRefused] at hm
  | choice tag tags =>
    obtain ⟨t, ht⟩ := settle R i
    refine ⟨t, fun m hm => ?_⟩
    rw [C109_exact D hT] at hm
    obtain ⟨_, u, _, _, _, hm, _⟩ := hm
    cases m with
    | size m => exact settled_typed D ht u m hm
    | unknown => cases R <;> simp [TypedRefused] at hm
  | sequenceOf s =>
    refine (C110_exact_partial D R (.sequenceOf s) trivial i n h).2 ?_
    rintro ⟨rem, hd, c, hF⟩
    rw [C109_exact D hT] at h
    rcases h with (⟨r, hU, _⟩ | ⟨_, _, _, _, _, h⟩) | ⟨_, _, c', _, _, h⟩
    · exact (C88_unique R i r r hU).1 ⟨rem, hd, c, hF⟩
    · simp at h
    · exact hof c' _ _ h
  | setOf s =>
    refine (C110_exact_partial D R (.setOf s) trivial i n h).2 ?_
    rintro ⟨rem, hd, c, hF⟩
    rw [C109_exact D hT] at h
    rcases h with (⟨r, hU, _⟩ | ⟨_, _, _, _, _, h⟩) | ⟨_, _, c', _, _, h⟩
    · exact (C88_unique R i r r hU).1 ⟨rem, hd, c, hF⟩
    · simp at h
    · exact hof c' _ _ h
  | optional s => rw [C109_exact D hT] at h; simp only [Refuses] at h
  | explicitOptional tag s => rw [C109_exact D hT] at h; simp only [Refuses] at h
  | sequence l => exact absurd hs id
  | set l => exact absurd hs id
  | explicit tag s => exact absurd hs id
  | implicit tag y => exact absurd hs id

example : (Schema.setOf (.typed 2)).run Tests.D0 .ber [0x31, 0x80, 0x02, 0x01] = .err (.incomplete (.size 1)) := rfl
example : (Schema.sequence [.typed 2]).run Tests.D0 .ber [0x30, 0x80, 0x02, 0x01] = .err (.incomplete (.size 1)) ∧
    (Schema.sequence [.typed 2]).run Tests.D0 .ber [0x30, 0x02, 0x02, 0x01] = .err (.incomplete (.size 1)) :=
  ⟨rfl, rfl⟩

end Verif
