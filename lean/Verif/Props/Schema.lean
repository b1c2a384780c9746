import Verif.SpecSchema
import Verif.Props.FailContent
import Verif.Props.Framing
/-!
# Composed parsers: C96 to C98
-/
namespace Verif
open Outcome Spec

/-! ## Leaves -/

theorem anyBy_ber {D : Deps} {i rem : Bytes} {o : BerObject} :
    parseBer D i = .ok (rem, o) ↔ AnyBy D .ber i rem o := by
  unfold parseBer
  rw [parseBerRecursive_iff]
  constructor
  · rintro ⟨e, c, h1, h2, h3⟩; exact ⟨c, ⟨e, h1, h2⟩, h3⟩
  · rintro ⟨c, ⟨e, h1, h2⟩, h3⟩; exact ⟨e, c, h1, h2, h3⟩

theorem anyBy_der {D : Deps} (hT : TimesKnown D) {i rem : Bytes} {o : BerObject} :
    parseDer D i = .ok (rem, o) ↔ AnyBy D .der i rem o := by
  unfold parseDer
  rw [show maxRecursion = 49 + 1 from rfl, parseDerRecursive_iff hT]
  have hm : ∀ c : Bytes, c.length ≤ maxObjectSize ↔ c.length < 2 ^ 32 := by
    intro c; unfold maxObjectSize; omega
  constructor
  · rintro ⟨hb, c, h1, h2, h3, h4, h5⟩
    exact ⟨c, ⟨hb, h1, h2, h3⟩, (hm c).1 h4, h5⟩
  · rintro ⟨c, ⟨hb, h1, h2, h3⟩, h4, h5⟩
    exact ⟨hb, c, h1, h2, h3, (hm c).2 h4, h5⟩

theorem typedBy_ber {D : Deps} {tag : Nat} {i rem : Bytes} {o : BerObject} :
    parseBerWithTag D tag i = .ok (rem, o) ↔ TypedBy D .ber tag tag i rem o := by
  rw [parseBerWithTag_iff]
  constructor
  · rintro ⟨e, c, h1, h2, h3, h4, h5⟩
    refine ⟨c, ⟨e, h1, h2⟩, h3, fun l hl => .inl ?_, by simp, by rw [← h3]; exact h5⟩
    have := h4 l hl
    unfold maxObjectSize at this
    omega
  · rintro ⟨c, ⟨e, h1, h2⟩, h3, h4, _, h5⟩
    refine ⟨e, c, h1, h2, h3, fun l hl => ?_, by rw [h3]; exact h5⟩
    rcases h4 l hl with h | h
    · unfold maxObjectSize; omega
    · simp at h

theorem typedBy_der {D : Deps} {tag : Nat} {i rem : Bytes} {o : BerObject} :
    parseDerWithTag D tag i = .ok (rem, o) ↔ TypedBy D .der tag tag i rem o := by
  rw [parseDerWithTag_iff]
  constructor
  · rintro ⟨hb, c, h1, h2, h3, h4, h5, h6, h7⟩
    refine ⟨c, ⟨hb, h1, h2, h3⟩, h4, fun l hl => ?_, fun _ => h5, by rw [← h4]; exact h7⟩
    rw [h3] at hl
    cases hl
    rcases h6 with h6 | h6
    · exact .inr ⟨rfl, h6⟩
    · unfold maxObjectSize at h6; exact .inl (by omega)
  · rintro ⟨c, ⟨hb, h1, h2, h3⟩, h4, h5, h6, h7⟩
    refine ⟨hb, c, h1, h2, h3, h4, h6 rfl, ?_, by rw [h4]; exact h7⟩
    rcases h5 _ h3 with h | h
    · unfold maxObjectSize; exact .inr (by omega)
    · exact .inl h.2

theorem implicitBy_ber {D : Deps} {tag t : Nat} {i rem : Bytes} {o : BerObject} :
    taggedImplicit .ber tag (parseBerContent D t) i = .ok (rem, o) ↔
      TypedBy D .ber tag t i rem o ∧ o.header.length ≠ .indefinite := by
  unfold taggedImplicit
  constructor
  · intro hh
    have h0 := hh
    unfold taggedImplicitG at h0
    obtain ⟨h, c, rem', hF, h1⟩ := (C38_container_ok .ber _ i rem o).1 h0
    obtain ⟨_, h2, h3⟩ := bind_eq_ok.1 h1
    obtain ⟨⟨r, x⟩, h4, h5⟩ := bind_eq_ok.1 h3
    simp only [ok.injEq, Prod.mk.injEq] at h5
    obtain ⟨rfl, rfl⟩ := h5
    have ht : h.tag = tag := by
      rw [liftResE_eq_ok] at h2
      unfold Header.assertTag at h2
      split at h2
      · assumption
      · simp at h2
    have h6 : taggedImplicitG .ber tag (parseBerContent D t) i = .ok (rem, x) := by
      rw [C40_implicit_partial .ber tag _ i rem c h hF, if_neg (by simpa using ht)]
      rw [show parseBerContent D t c h 50 = .ok (r, x) from h4]
      rfl
    cases hl : h.length with
    | indefinite =>
      rcases C90_indefinite_refused D tag t i rem c h hF ht hl with ⟨n, h7⟩ | h7 <;>
      · rw [h6] at h7; simp at h7
    | definite l =>
      have hlc : h.length = .definite c.length := by
        obtain ⟨e, _, hE⟩ := hF
        cases hE with
        | definite hb c h H hd => exact hd
        | indefinite m hb es u h hm H hi hes hu => rw [hl] at hi; simp at hi
      obtain ⟨_, h7, h8⟩ := ((C90_definite_partial D tag t i rem c h hF ht hlc).1 rem x).1 h6
      refine ⟨⟨c, hF, ht, fun l' hl' => .inl ?_, by simp, h8⟩, by simp only [BerObject.header]; rw [hl]; simp⟩
      simp only [BerObject.header] at hl'
      rw [hlc] at hl'
      cases hl'
      exact h7
  · rintro ⟨⟨c, hF, ht, h1, _, h2⟩, hn⟩
    obtain ⟨h, x⟩ := o
    simp only [BerObject.header, BerObject.content] at *
    have hlc : h.length = .definite c.length := by
      obtain ⟨e, _, hE⟩ := hF
      cases hE with
      | definite hb c h H hd => exact hd
      | indefinite m hb es u h hm H hi hes hu => exact absurd hi hn
    have hlt : c.length < 2 ^ 32 := by
      rcases h1 _ hlc with h | h
      · exact h
      · simp at h
    have h6 := ((C90_definite_partial D tag t i rem c h hF ht hlc).1 rem x).2 ⟨rfl, hlt, h2⟩
    rw [C40_implicit_partial .ber tag _ i rem c h hF, if_neg (by simpa using ht)] at h6 ⊢
    obtain ⟨⟨r, y⟩, h7, h8⟩ := bind_eq_ok.1 h6
    simp only [ok.injEq, Prod.mk.injEq, true_and] at h8
    subst h8
    rw [h7]
    rfl

theorem implicitBy_der {D : Deps} {tag t : Nat} {i rem : Bytes} {o : BerObject} :
    taggedImplicit .der tag (parseDerContent D t) i = .ok (rem, o) ↔
      TypedBy D .der tag t i rem o ∧ o.header.length ≠ .indefinite := by
  unfold taggedImplicit
  constructor
  · intro hh
    have h0 := hh
    unfold taggedImplicitG at h0
    obtain ⟨h, c, rem', hF, h1⟩ := (C38_container_ok .der _ i rem o).1 h0
    obtain ⟨_, h2, h3⟩ := bind_eq_ok.1 h1
    obtain ⟨⟨r, x⟩, h4, h5⟩ := bind_eq_ok.1 h3
    simp only [ok.injEq, Prod.mk.injEq] at h5
    obtain ⟨rfl, rfl⟩ := h5
    have ht : h.tag = tag := by
      rw [liftResE_eq_ok] at h2
      unfold Header.assertTag at h2
      split at h2
      · assumption
      · simp at h2
    have h6 : taggedImplicitG .der tag (parseDerContent D t) i = .ok (rem, x) := by
      rw [C40_implicit_partial .der tag _ i rem c h hF, if_neg (by simpa using ht)]
      rw [show parseDerContent D t c h 50 = .ok (r, x) from h4]
      rfl
    have hlc : h.length = .definite c.length := by obtain ⟨_, _, _, hl⟩ := hF; exact hl
    obtain ⟨_, h7, h8, h9⟩ := ((C90_der D tag t i rem c h hF ht).1 rem x).1 h6
    refine ⟨⟨c, hF, ht, fun l' hl' => ?_, fun _ => h7, h9⟩, by simp only [BerObject.header]; rw [hlc]; simp⟩
    simp only [BerObject.header] at hl'
    rw [hlc] at hl'
    cases hl'
    rcases h8 with h8 | h8
    · exact .inr ⟨rfl, h8⟩
    · exact .inl h8
  · rintro ⟨⟨c, hF, ht, h1, h2, h3⟩, _⟩
    obtain ⟨h, x⟩ := o
    simp only [BerObject.header, BerObject.content] at *
    have hlc : h.length = .definite c.length := by obtain ⟨_, _, _, hl⟩ := hF; exact hl
    have hlt : t = 3 ∨ c.length < 2 ^ 32 := by
      rcases h1 _ hlc with h | h
      · exact .inr h
      · exact .inl h.2
    have h6 := ((C90_der D tag t i rem c h hF ht).1 rem x).2 ⟨rfl, h2 trivial, hlt, h3⟩
    rw [C40_implicit_partial .der tag _ i rem c h hF, if_neg (by simpa using ht)] at h6 ⊢
    obtain ⟨⟨r, y⟩, h7, h8⟩ := bind_eq_ok.1 h6
    simp only [ok.injEq, Prod.mk.injEq, true_and] at h8
    subst h8
    rw [h7]
    rfl

/-- `alt` of typed parsers accepts what one of them accepts. -/
theorem alt_typed {D : Deps} {p : Nat → Bytes → IRes BerError BerObject}
    (hp : p = parseBerWithTag D ∨ p = parseDerWithTag D) {tag : Nat} {tags : List Nat} {i rem : Bytes}
    {o : BerObject} : alt p tag tags i = .ok (rem, o) ↔ ∃ t ∈ tag :: tags, p t i = .ok (rem, o) := by
  -- a parser that answers something else than `Error` and not the value leaves no other that gives a value
  have key : ∀ t t' x, p t' i = .ok x → (∃ e, p t i = .err (.error e)) ∨ p t i = .ok x := by
    intro t t' x hx
    have gen : ∀ (hd : Bytes → IRes BerError Header) (g : Bytes → Header → IRes BerError Content),
        (∀ t, p t i = (hd i >>? fun r => liftRes (r.2.assertTag t) >>? fun _ =>
          g r.1 r.2 >>? fun s => .ok (s.1, .mk r.2 s.2))) →
        (∃ e, p t i = .err (.error e)) ∨ p t i = .ok x := by
      intro hd g hpe
      rw [hpe] at hx ⊢
      obtain ⟨⟨r, h⟩, h1, h2⟩ := bind_eq_ok.1 hx
      obtain ⟨_, h3, h4⟩ := bind_eq_ok.1 h2
      rw [h1]
      by_cases ht : h.tag = t
      · refine .inr ?_
        simp only [ok_bind]
        rw [show h.assertTag t = .ok () by simp [Header.assertTag, ht]]
        exact h4
      · exact .inl ⟨_, by simp only [ok_bind, Header.assertTag, ht, if_false]; rfl⟩
    rcases hp with rfl | rfl
    · exact gen headerFromBer (fun i h => berReadElementContentAs D i h.tag h.length h.constructed maxRecursion)
        fun _ => rfl
    · exact gen headerFromDer (fun i h => derReadElementContentAs D i h.tag h.length h.constructed maxRecursion)
        fun _ => rfl
  induction tags generalizing tag with
  | nil => simp [alt]
  | cons t ts ih =>
    constructor
    · intro h
      unfold alt at h
      split at h
      · obtain ⟨t', h1, h2⟩ := ih.1 h
        exact ⟨t', by simp only [List.mem_cons] at h1 ⊢; exact .inr h1, h2⟩
      · exact ⟨tag, by simp, h⟩
    · rintro ⟨t', h1, h2⟩
      unfold alt
      rcases key tag t' _ h2 with ⟨e, he⟩ | he
      · rw [he]
        rcases List.mem_cons.1 h1 with rfl | h1
        · rw [he] at h2; simp at h2
        · exact ih.2 ⟨t', h1, h2⟩
      · rw [he]

/-! ## C97: totality and what is consumed -/

/-- Parsers that are not optional at the outside read a prefix, whatever follows. -/
theorem local_schema (D : Deps) (R : Rules) (s : Schema) (hs : s.isOptional = false) : Local (s.run D R) := by
  have hm : ∀ {α β : Type} (g : α → β) (p : Bytes → IRes BerError α), Local p → Local (mapRes g p) := by
    intro α β g p hp i rem b hh
    obtain ⟨⟨r, a⟩, h1, h2⟩ := bind_eq_ok.1 hh
    simp only [ok.injEq, Prod.mk.injEq] at h2
    obtain ⟨rfl, rfl⟩ := h2
    obtain ⟨pre, h3, h4⟩ := hp _ _ _ h1
    exact ⟨pre, h3, fun x => by unfold mapRes; rw [h4 x]; rfl⟩
  cases s with
  | any =>
    cases R
    · exact (local_parseBerAnyR D maxRecursion : Local (parseBer D))
    · exact local_parseDerRecursive D _
  | typed tag =>
    cases R
    · exact local_parseBerWithTag D tag
    · exact local_parseDerWithTag D tag
  | choice tag tags =>
    have : ∀ p : Nat → Bytes → IRes BerError BerObject, (p = parseBerWithTag D ∨ p = parseDerWithTag D) →
        (∀ t, Local (p t)) → Local (alt p tag tags) := by
      intro p hp hl i rem o hh
      obtain ⟨t, h1, h2⟩ := (alt_typed hp).1 hh
      obtain ⟨pre, h3, h4⟩ := hl t _ _ _ h2
      exact ⟨pre, h3, fun x => (alt_typed hp).2 ⟨t, h1, h4 x⟩⟩
    cases R
    · exact this _ (.inl rfl) (local_parseBerWithTag D)
    · exact this _ (.inr rfl) (local_parseDerWithTag D)
  | sequenceOf s => simp only [Schema.run, Verif.sequenceOf, ofV, definedG]; exact hm _ _ (local_container R _)
  | setOf s => simp only [Schema.run, Verif.setOf, ofV, definedG]; exact hm _ _ (local_container R _)
  | sequence l => simp only [Schema.run]; exact hm _ _ (local_container R _)
  | set l => simp only [Schema.run]; exact hm _ _ (local_container R _)
  | explicit tag s => simp only [Schema.run, taggedExplicit, taggedExplicitG]; exact local_container R _
  | implicit tag t => cases R <;> · simp only [Schema.run, taggedImplicit, taggedImplicitG]; exact local_container _ _
  | optional s => simp [Schema.isOptional] at hs
  | explicitOptional tag s => simp [Schema.isOptional] at hs

/-- At least two octets are read unless the parser is optional at the outside. -/
theorem schema_pos (D : Deps) (R : Rules) (s : Schema) (hs : s.isOptional = false) (i rem : Bytes)
    (o : BerObject) (h : s.run D R i = .ok (rem, o)) :
    ∃ consumed, i = consumed ++ rem ∧ 2 ≤ consumed.length := by
  have hm : ∀ {α : Type} (g : α → BerObject) (f : Bytes → Header → IRes BerError α),
      mapRes g (container R f) i = .ok (rem, o) → ∃ consumed, i = consumed ++ rem ∧ 2 ≤ consumed.length := by
    intro α g f hh
    obtain ⟨⟨r, a⟩, h1, h2⟩ := bind_eq_ok.1 hh
    simp only [ok.injEq, Prod.mk.injEq] at h2
    obtain ⟨rfl, rfl⟩ := h2
    exact C05_container_strict_suffix R f _ _ _ h1
  cases s with
  | any =>
    cases R
    · simp only [Schema.run, parseBer] at h; exact C05_parse_ber_strict_suffix D _ i rem o h
    · exact C05_parse_der_strict_suffix D _ i rem o h
  | typed tag =>
    cases R
    · exact C05_typed_strict_suffix D tag i rem o (.inl h)
    · exact C05_typed_strict_suffix D tag i rem o (.inr h)
  | choice tag tags =>
    cases R
    · obtain ⟨t, _, h2⟩ := (alt_typed (.inl rfl)).1 h
      exact C05_typed_strict_suffix D t i rem o (.inl h2)
    · obtain ⟨t, _, h2⟩ := (alt_typed (.inr rfl)).1 h
      exact C05_typed_strict_suffix D t i rem o (.inr h2)
  | sequenceOf s => simp only [Schema.run, Verif.sequenceOf, ofV, definedG] at h; exact hm _ _ h
  | setOf s => simp only [Schema.run, Verif.setOf, ofV, definedG] at h; exact hm _ _ h
  | sequence l => simp only [Schema.run] at h; exact hm _ _ h
  | set l => simp only [Schema.run] at h; exact hm _ _ h
  | explicit tag s => simp only [Schema.run, taggedExplicit, taggedExplicitG] at h; exact C05_container_strict_suffix R _ i rem o h
  | implicit tag t =>
    cases R <;> · simp only [Schema.run, taggedImplicit, taggedImplicitG] at h; exact C05_container_strict_suffix _ _ i rem o h
  | optional s => simp [Schema.isOptional] at hs
  | explicitOptional tag s => simp [Schema.isOptional] at hs

theorem parseOptional_length {f : Bytes → IRes BerError BerObject}
    (hf : ∀ j r v, f j = .ok (r, v) → ∃ pre, j = pre ++ r) (i rem : Bytes) (o : BerObject)
    (h : parseOptional f i = .ok (rem, o)) : ∃ pre, i = pre ++ rem := by
  unfold parseOptional at h
  split at h
  · rename_i r hr
    simp only [ok.injEq, Prod.mk.injEq] at h
    obtain ⟨rfl, _⟩ := h
    exact hf _ _ _ hr
  · simp only [ok.injEq, Prod.mk.injEq] at h
    exact ⟨[], by simp [h.1]⟩
  · simp at h
  · simp at h

/-- The remainder is an end of the input. -/
theorem schema_suffix (D : Deps) (R : Rules) : ∀ (s : Schema) (i rem : Bytes) (o : BerObject),
    s.run D R i = .ok (rem, o) → ∃ pre, i = pre ++ rem
  | .optional s, i, rem, o, h =>
    parseOptional_length (fun j r v hh => schema_suffix D R s j r v hh) i rem o (by
      simpa only [Schema.run] using h)
  | .explicitOptional tag s, i, rem, o, h => by
    simp only [Schema.run, parseExplicitOptional] at h
    exact parseOptional_length (fun j r v hh => (local_container .ber _).suffix hh) i rem o h
  | .any, i, rem, o, h => (local_schema D R .any rfl).suffix h
  | .typed t, i, rem, o, h => (local_schema D R (.typed t) rfl).suffix h
  | .choice t ts, i, rem, o, h => (local_schema D R (.choice t ts) rfl).suffix h
  | .sequenceOf s, i, rem, o, h => (local_schema D R (.sequenceOf s) rfl).suffix h
  | .setOf s, i, rem, o, h => (local_schema D R (.setOf s) rfl).suffix h
  | .sequence l, i, rem, o, h => (local_schema D R (.sequence l) rfl).suffix h
  | .set l, i, rem, o, h => (local_schema D R (.set l) rfl).suffix h
  | .explicit t s, i, rem, o, h => (local_schema D R (.explicit t s) rfl).suffix h
  | .implicit t y, i, rem, o, h => (local_schema D R (.implicit t y) rfl).suffix h

theorem schema_length (D : Deps) (R : Rules) (s : Schema) (i rem : Bytes) (o : BerObject)
    (h : s.run D R i = .ok (rem, o)) : rem.length ≤ i.length := by
  obtain ⟨pre, rfl⟩ := schema_suffix D R s i rem o h
  simp

mutual
theorem schema_total (D : Deps) (R : Rules) : ∀ (s : Schema) (i : Bytes), (s.run D R i).Returns
  | .any, i => by
    cases R
    · exact C01_parse_ber_total D i
    · exact C02_parse_der_total D i
  | .typed t, i => by
    cases R
    · exact (C03_typed_parsers_total D t i).1
    · exact (C03_typed_parsers_total D t i).2
  | .choice t ts, i => by
    have : ∀ (p : Nat → Bytes → IRes BerError BerObject), (∀ t, (p t i).Returns) → ∀ ts t,
        (alt p t ts i).Returns := by
      intro p hp ts
      induction ts with
      | nil => intro t; exact hp t
      | cons t' ts ih =>
        intro t
        unfold alt
        split
        · exact ih t'
        · exact hp t
    cases R
    · exact this _ (fun t => (C03_typed_parsers_total D t i).1) ts t
    · exact this _ (fun t => (C03_typed_parsers_total D t i).2) ts t
  | .sequenceOf s, i => by
    simp only [Schema.run]
    exact (C04_object_combinators_total_partial R _ (fun _ => .ok ([], [])) i (schema_total D R s)
      (schema_length D R s) (fun _ => by simp)).1
  | .setOf s, i => by
    simp only [Schema.run]
    exact (C04_object_combinators_total_partial R _ (fun _ => .ok ([], [])) i (schema_total D R s)
      (schema_length D R s) (fun _ => by simp)).2.1
  | .sequence l, i => by
    simp only [Schema.run]
    exact (C04_object_combinators_total_partial R (parseBer D) _ i (C01_parse_ber_total D)
      (schema_length D .ber .any) (schema_all_total D R l)).2.2.1
  | .set l, i => by
    simp only [Schema.run]
    exact (C04_object_combinators_total_partial R (parseBer D) _ i (C01_parse_ber_total D)
      (schema_length D .ber .any) (schema_all_total D R l)).2.2.2
  | .explicit t s, i => by
    simp only [Schema.run]
    exact (C04_tagged_objects_total R t _ (fun _ _ _ => .ok ([], .null)) i (schema_total D R s)
      (fun _ _ _ => by simp)).1
  | .implicit t y, i => by
    cases R
    · simp only [Schema.run]
      exact (C04_tagged_objects_total .ber t (parseBer D) _ i (C01_parse_ber_total D)
        (fun c h d => (C03_content_parsers_total D c y h.length h.constructed d h).2.2.1)).2.1
    · simp only [Schema.run]
      exact (C04_tagged_objects_total .der t (parseBer D) _ i (C01_parse_ber_total D)
        (fun c h d => (C03_content_parsers_total D c y h.length h.constructed d h).2.2.2)).2.1
  | .optional s, i => by
    simp only [Schema.run]
    exact (C04_optional_total 0 _ i (schema_total D R s)).1
  | .explicitOptional t s, i => by
    simp only [Schema.run]
    exact (C04_optional_total t _ i (schema_total D R s)).2
theorem schema_all_total (D : Deps) (R : Rules) : ∀ (l : List Schema) (i : Bytes),
    (Schema.runAll D R l i).Returns
  | [], i => by simp [Schema.runAll]
  | s :: l, i => by
    simp only [Schema.runAll]
    exact returns_bind (schema_total D R s i) fun r _ =>
      returns_bind (schema_all_total D R l r.1) fun _ _ => by simp
end

/-- C97: a parser composed of the functions of the library in any way returns, on every input: no panic, no
endless loop. -/
theorem C97_total (D : Deps) (R : Rules) (s : Schema) (i : Bytes) : (s.run D R i).Returns :=
  schema_total D R s i

/-- C97: the remainder is an end of the input; if the composition is not optional at the outside, at least two
octets are read. -/
theorem C97_suffix (D : Deps) (R : Rules) (s : Schema) (i rem : Bytes) (o : BerObject)
    (h : s.run D R i = .ok (rem, o)) :
    ∃ consumed, i = consumed ++ rem ∧ (s.isOptional = false → 2 ≤ consumed.length) := by
  cases hs : s.isOptional with
  | false => obtain ⟨c, h1, h2⟩ := schema_pos D R s hs i rem o h; exact ⟨c, h1, fun _ => h2⟩
  | true => obtain ⟨c, h1⟩ := schema_suffix D R s i rem o h; exact ⟨c, h1, by simp⟩

example := C97_suffix Tests.D0 .der (.sequence [.typed 2, .optional (.typed 1)]) [0x30, 0x03, 0x02, 0x01, 0x05, 9] [9] _ rfl

/-- C97: octets behind what was read do not change the value, unless the composition is optional at the
outside. -/
theorem C97_extension (D : Deps) (R : Rules) (s : Schema) (hs : s.isOptional = false) (i rem t : Bytes)
    (o : BerObject) (h : s.run D R i = .ok (rem, o)) : s.run D R (i ++ t) = .ok (rem ++ t, o) :=
  (local_schema D R s hs).extend h t

example := C97_extension Tests.D0 .der (.sequence [.typed 2, .optional (.typed 1)]) rfl [0x30, 0x03, 0x02, 0x01, 0x05, 9] [9] [8] _ rfl

/-- C97: the condition is needed: "no octets at all" is accepted as an absent option, and is a present one when
octets are added. -/
theorem C97_optional_extension_counterexample (D : Deps) :
    (Schema.optional (.typed 5)).run D .ber [] = .ok ([], .fromObj .optionalNone) ∧
    (Schema.optional (.typed 5)).run D .ber ([] ++ [5, 0]) =
      .ok ([], .mk ⟨.universal, false, 5, .definite 0, some [5]⟩
        (.optionalSome (.mk ⟨.universal, false, 5, .definite 0, some [5]⟩ .null))) := ⟨rfl, rfl⟩

/-! ## C96: what is accepted -/

/-- The empty input is answered with `Incomplete`, unless the composition is optional at the outside. -/
theorem schema_empty (D : Deps) (R : Rules) (s : Schema) (hs : s.isOptional = false) :
    ∃ n, s.run D R [] = .err (.incomplete n) := by
  have hc : ∀ {α : Type} (f : Bytes → Header → IRes BerError α), container R f [] = .err (.incomplete (.size 1)) := by
    intro α f; cases R <;> rfl
  have hm : ∀ {α : Type} (g : α → BerObject) (f : Bytes → Header → IRes BerError α),
      mapRes g (container R f) [] = .err (.incomplete (.size 1)) := by
    intro α g f; unfold mapRes; rw [hc]; rfl
  cases s with
  | any => cases R <;> exact ⟨.size 1, rfl⟩
  | typed t => cases R <;> exact ⟨.size 1, rfl⟩
  | choice t ts =>
    refine ⟨.size 1, ?_⟩
    cases R <;> · simp only [Schema.run]; cases ts <;> rfl
  | sequenceOf s => simp only [Schema.run, Verif.sequenceOf, ofV, definedG]; exact ⟨_, hm _ _⟩
  | setOf s => simp only [Schema.run, Verif.setOf, ofV, definedG]; exact ⟨_, hm _ _⟩
  | sequence l => simp only [Schema.run, sequenceDefined, definedG]; exact ⟨_, hm _ _⟩
  | set l => simp only [Schema.run, setDefined, definedG]; exact ⟨_, hm _ _⟩
  | explicit t s => simp only [Schema.run, taggedExplicit, taggedExplicitG]; exact ⟨_, hc _⟩
  | implicit t y =>
    cases R
    · simp only [Schema.run, taggedImplicit, taggedImplicitG]; exact ⟨_, hc _⟩
    · simp only [Schema.run, taggedImplicit, taggedImplicitG]; exact ⟨_, hc _⟩
  | optional s => simp [Schema.isOptional] at hs
  | explicitOptional t s => simp [Schema.isOptional] at hs

/-- An optional parser never answers an error. -/
theorem schema_optional_ok (D : Deps) (R : Rules) (s : Schema) (hs : s.isOptional = true) (i : Bytes) :
    ∃ x, s.run D R i = .ok x := by
  have ht := schema_total D R s i
  have hn : ∀ e, s.run D R i ≠ .err e := by
    intro e
    cases s with
    | optional s => simp only [Schema.run]; exact C41_optional_never_err _ i e
    | explicitOptional t s =>
      simp only [Schema.run, parseExplicitOptional]; exact C41_optional_never_err _ i e
    | _ => simp [Schema.isOptional] at hs
  cases h : s.run D R i with
  | ok x => exact ⟨x, rfl⟩
  | err e => exact absurd h (hn e)
  | panic => rw [h] at ht; exact absurd ht id
  | diverge => rw [h] at ht; exact absurd ht id

/-- Items that are always there are read without end: the result is never a list. -/
theorem ofV_always_ok {f : Bytes → IRes BerError BerObject} (hf : ∀ i, ∃ x, f i = .ok x) (R : Rules) (tag : Nat)
    (i : Bytes) (x : Bytes × List BerObject) : ofV R tag f i ≠ .ok x := by
  have hm : ∀ fuel c y, many0 (complete (cut f)) fuel c ≠ .ok y := by
    intro fuel
    induction fuel with
    | zero => intro c y; simp [many0]
    | succ n ih =>
      intro c y h
      obtain ⟨⟨r, v⟩, hx⟩ := hf c
      unfold many0 at h
      rw [complete_cut_ok.2 hx] at h
      simp only at h
      split at h
      · simp at h
      · obtain ⟨z, h1, _⟩ := bind_eq_ok.1 h
        exact ih _ _ h1
  intro h
  obtain ⟨rem, vs⟩ := x
  unfold ofV definedG at h
  obtain ⟨_, c, rem', _, h1⟩ := (C38_container_ok R _ i rem vs).1 h
  obtain ⟨_, _, h2⟩ := bind_eq_ok.1 h1
  unfold ofSubparser allConsuming at h2
  obtain ⟨z, h3, _⟩ := bind_eq_ok.1 h2
  exact hm _ _ _ h3

theorem chain_several {f : Bytes → IRes BerError BerObject} {P : Bytes → Bytes → BerObject → Prop}
    (h : ∀ i rem o, f i = .ok (rem, o) ↔ P i rem o) (hpos : ∀ i rem o, f i = .ok (rem, o) → rem.length < i.length)
    (c : Bytes) (vs : List BerObject) : Chain f c vs ↔ Several P c vs := by
  constructor
  · intro hC
    induction hC with
    | nil => exact .nil
    | cons i rem v vs h1 _ _ ih => exact .cons i rem v vs ((h _ _ _).1 h1) ih
  · intro hS
    induction hS with
    | nil => exact .nil
    | cons i rem v vs h1 _ ih =>
      have := (h _ _ _).2 h1
      exact .cons i rem v vs this (hpos _ _ _ this) ih

theorem definedG_iff {R : Rules} {tag : Nat} {f : Bytes → IRes BerError (List BerObject)}
    {P : Bytes → Bytes → List BerObject → Prop} (h : ∀ i rem vs, f i = .ok (rem, vs) ↔ P i rem vs)
    (g : List BerObject → BerObject) (i rem : Bytes) (o : BerObject) :
    mapRes g (definedG R tag fun data _ => f data) i = .ok (rem, o) ↔
      ∃ h c rem' vs, FramedBy R i rem h c ∧ h.tag = tag ∧ P c rem' vs ∧ o = g vs := by
  unfold mapRes
  constructor
  · intro hh
    obtain ⟨⟨r, vs⟩, h1, h2⟩ := bind_eq_ok.1 hh
    simp only [ok.injEq, Prod.mk.injEq] at h2
    obtain ⟨rfl, rfl⟩ := h2
    have h1' := h1
    unfold definedG at h1'
    obtain ⟨hd, c, rem', hF, _⟩ := (C38_container_ok R _ i r vs).1 h1'
    rw [C38_defined R tag _ i r c hd hF] at h1
    split at h1
    · rename_i ht
      obtain ⟨⟨r2, vs2⟩, h3, h4⟩ := bind_eq_ok.1 h1
      simp only [ok.injEq, Prod.mk.injEq, true_and] at h4
      subst h4
      exact ⟨hd, c, r2, vs2, hF, ht, (h _ _ _).1 h3, rfl⟩
    · simp at h1
  · rintro ⟨hd, c, rem', vs, hF, ht, hP, rfl⟩
    rw [C38_defined R tag _ i rem c hd hF, if_pos ht, (h _ _ _).2 hP]
    rfl

theorem ofV_iff (D : Deps) (R : Rules) (s : Schema) (h : ∀ i rem o, s.run D R i = .ok (rem, o) ↔ Accepts D R s i rem o)
    (tag : Nat) (g : List BerObject → BerObject) (i rem : Bytes) (o : BerObject) :
    mapRes g (ofV R tag (s.run D R)) i = .ok (rem, o) ↔
      ∃ h c vs, FramedBy R i rem h c ∧ h.tag = tag ∧ s.isOptional = false ∧ Several (Accepts D R s) c vs ∧
        o = g vs := by
  unfold mapRes
  cases hs : s.isOptional with
  | true =>
    constructor
    · intro hh
      obtain ⟨x, h1, _⟩ := bind_eq_ok.1 hh
      exact absurd h1 (ofV_always_ok (schema_optional_ok D R s hs) R tag i x)
    · rintro ⟨_, _, _, _, _, h1, _⟩; simp at h1
  | false =>
    have hpos : ∀ i rem o, s.run D R i = .ok (rem, o) → rem.length < i.length := by
      intro i rem o hh
      obtain ⟨p, rfl, h2⟩ := schema_pos D R s hs i rem o hh
      rw [List.length_append]
      omega
    have key := fun vs => C37_of_v_partial R tag (s.run D R) i rem vs (schema_length D R s) (schema_empty D R s hs)
    rw [bind_eq_ok]
    constructor
    · rintro ⟨⟨r, vs⟩, h1, h2⟩
      simp only [ok.injEq, Prod.mk.injEq] at h2
      obtain ⟨rfl, rfl⟩ := h2
      obtain ⟨hd, c, hF, ht, hC⟩ := (key vs).1 h1
      exact ⟨hd, c, vs, hF, ht, rfl, (chain_several h hpos c vs).1 hC, rfl⟩
    · rintro ⟨hd, c, vs, hF, ht, _, hC, rfl⟩
      exact ⟨(rem, vs), (key vs).2 ⟨hd, c, hF, ht, (chain_several h hpos c vs).2 hC⟩, rfl⟩

theorem parseOptional_ok {f : Bytes → IRes BerError BerObject} (hf : ∀ i, (f i).Returns) (i rem : Bytes)
    (o : BerObject) : parseOptional f i = .ok (rem, o) ↔
      (∃ o', f i = .ok (rem, o') ∧ o = .mk o'.header (.optionalSome o')) ∨
      ((∀ rem' o', f i ≠ .ok (rem', o')) ∧ rem = i ∧ o = .fromObj .optionalNone) := by
  have ht := hf i
  unfold parseOptional
  cases h : f i with
  | ok r =>
    obtain ⟨r, v⟩ := r
    constructor
    · intro hh
      simp only [ok.injEq, Prod.mk.injEq] at hh
      obtain ⟨rfl, rfl⟩ := hh
      exact .inl ⟨v, rfl, rfl⟩
    · rintro (⟨o', h1, rfl⟩ | ⟨h1, _⟩)
      · simp only [ok.injEq, Prod.mk.injEq] at h1
        obtain ⟨rfl, rfl⟩ := h1
        rfl
      · exact absurd rfl (h1 r v)
  | err e =>
    constructor
    · intro hh
      simp only [ok.injEq, Prod.mk.injEq] at hh
      exact .inr ⟨by simp, hh.1.symm, hh.2.symm⟩
    · rintro (⟨o', h1, _⟩ | ⟨_, rfl, rfl⟩)
      · simp at h1
      · rfl
  | panic => rw [h] at ht; exact absurd ht id
  | diverge => rw [h] at ht; exact absurd ht id

mutual
theorem schema_iff (D : Deps) (hT : TimesKnown D) (R : Rules) : ∀ (s : Schema) (i rem : Bytes) (o : BerObject),
    s.run D R i = .ok (rem, o) ↔ Accepts D R s i rem o
  | .any, i, rem, o => by
    cases R
    · exact anyBy_ber
    · exact anyBy_der hT
  | .typed t, i, rem, o => by
    cases R
    · exact typedBy_ber
    · exact typedBy_der
  | .choice t ts, i, rem, o => by
    cases R
    · simp only [Schema.run, Accepts, alt_typed (D := D) (.inl rfl), typedBy_ber]
    · simp only [Schema.run, Accepts, alt_typed (D := D) (.inr rfl), typedBy_der]
  | .sequenceOf s, i, rem, o => by
    simp only [Schema.run, Accepts, Verif.sequenceOf]
    exact ofV_iff D R s (schema_iff D hT R s) _ _ i rem o
  | .setOf s, i, rem, o => by
    simp only [Schema.run, Accepts, Verif.setOf]
    exact ofV_iff D R s (schema_iff D hT R s) _ _ i rem o
  | .sequence l, i, rem, o => by
    simp only [Schema.run, Accepts, sequenceDefined]
    exact definedG_iff (schema_all_iff D hT R l) _ i rem o
  | .set l, i, rem, o => by
    simp only [Schema.run, Accepts, setDefined]
    exact definedG_iff (schema_all_iff D hT R l) _ i rem o
  | .explicit t s, i, rem, o => by
    simp only [Schema.run, Accepts]
    rw [C39_explicit_object]
    simp only [schema_iff D hT R s]
  | .implicit t y, i, rem, o => by
    cases R
    · simp only [Schema.run, Accepts]; exact implicitBy_ber
    · simp only [Schema.run, Accepts]; exact implicitBy_der
  | .optional s, i, rem, o => by
    simp only [Schema.run, Accepts]
    rw [parseOptional_ok (schema_total D R s)]
    simp only [ne_eq, schema_iff D hT R s]
  | .explicitOptional t s, i, rem, o => by
    simp only [Schema.run, Accepts]
    have ih := schema_iff D hT R s
    rcases C41_explicit_optional t (s.run D R) i (schema_total D R s) with
      ⟨r, h, c, rem', o', h1, h2, h3, h4, h5, h6⟩ | ⟨h1, h2, h3⟩
    · rw [h6]
      constructor
      · intro hh
        simp only [ok.injEq, Prod.mk.injEq] at hh
        obtain ⟨rfl, rfl⟩ := hh
        exact .inl ⟨h, c, rem', o', h1, h2, h3, h4, (ih _ _ _).1 h5, rfl⟩
      · rintro (⟨h', c', rem'', o'', g1, g2, g3, g4, g5, rfl⟩ | ⟨g1, _⟩)
        · have e1 := (frame_iff (E := BerError)).2 h1
          rw [(frame_iff (E := BerError)).2 g1] at e1
          simp only [ok.injEq, Prod.mk.injEq] at e1
          obtain ⟨rfl, rfl, rfl⟩ := e1
          have e2 := (ih _ _ _).2 g5
          rw [h5] at e2
          simp only [ok.injEq, Prod.mk.injEq] at e2
          rw [e2.2]
        · exact absurd ((ih _ _ _).1 h5) (g1 r h c rem' o' h1 h2 h3 h4)
    · have h4 : parseExplicitOptional t (s.run D R) i = .ok (i, .fromObj .optionalNone) := by
        have h5 := h3
        unfold parseExplicitOptional parseOptional at h5 ⊢
        split at h5
        · simp only [ok.injEq, Prod.mk.injEq, BerObject.mk.injEq, reduceCtorEq, and_false] at h5
        · rfl
        · simp at h5
        · simp at h5
      rw [h4]
      constructor
      · intro hh
        simp only [ok.injEq, Prod.mk.injEq] at hh
        refine .inr ⟨fun rem h c rem' o' g1 g2 g3 g4 g5 => ?_, hh.1.symm, hh.2.symm⟩
        exact h1 rem h c rem' o' g1 g2 g3 g4 ((ih _ _ _).2 g5)
      · rintro (⟨h', c', rem'', o'', g1, g2, g3, g4, g5, rfl⟩ | ⟨_, rfl, rfl⟩)
        · exact absurd ((ih _ _ _).2 g5) (h1 _ _ _ _ _ g1 g2 g3 g4)
        · rfl
theorem schema_all_iff (D : Deps) (hT : TimesKnown D) (R : Rules) : ∀ (l : List Schema) (i rem : Bytes)
    (vs : List BerObject), Schema.runAll D R l i = .ok (rem, vs) ↔ AcceptsAll D R l i rem vs
  | [], i, rem, vs => by
    simp only [Schema.runAll, AcceptsAll, ok.injEq, Prod.mk.injEq]
    exact ⟨fun h => ⟨h.1.symm, h.2.symm⟩, fun h => ⟨h.1.symm, h.2.symm⟩⟩
  | s :: l, i, rem, vs => by
    simp only [Schema.runAll, AcceptsAll]
    rw [bind_eq_ok]
    constructor
    · rintro ⟨⟨r, v⟩, h1, h2⟩
      obtain ⟨⟨q, ws⟩, h3, h4⟩ := bind_eq_ok.1 h2
      simp only [ok.injEq, Prod.mk.injEq] at h4
      obtain ⟨rfl, rfl⟩ := h4
      exact ⟨r, v, ws, (schema_iff D hT R s _ _ _).1 h1, (schema_all_iff D hT R l _ _ _).1 h3, rfl⟩
    · rintro ⟨mid, v, ws, h1, h2, rfl⟩
      refine ⟨(mid, v), (schema_iff D hT R s _ _ _).2 h1, ?_⟩
      rw [(schema_all_iff D hT R l _ _ _).2 h2]
      rfl
end

/-- C96: a parser composed of the functions of the library accepts exactly the octets specified for the
composition, with the specified object and remainder; for every composition, both for BER and for DER. -/
theorem C96_exact (D : Deps) (hT : TimesKnown D) (R : Rules) (s : Schema) (i rem : Bytes) (o : BerObject) :
    s.run D R i = .ok (rem, o) ↔ Accepts D R s i rem o := schema_iff D hT R s i rem o

example := (C96_exact Tests.D0 timesKnown_D0 .der (.sequence [.typed 2, .optional (.typed 1)])
  [0x30, 0x03, 0x02, 0x01, 0x05, 9] [9] _).1 rfl

/-- C96: so the specification gives at most one remainder and object. -/
theorem C96_unique (D : Deps) (hT : TimesKnown D) (R : Rules) (s : Schema) (i rem rem' : Bytes) (o o' : BerObject)
    (h : Accepts D R s i rem o) (h' : Accepts D R s i rem' o') : rem = rem' ∧ o = o' := by
  have h1 := (schema_iff D hT R s i rem o).2 h
  rw [(schema_iff D hT R s i rem' o').2 h'] at h1
  simp only [ok.injEq, Prod.mk.injEq] at h1
  exact ⟨h1.1.symm, h1.2.symm⟩

example := C96_unique Tests.D0 timesKnown_D0 .der (.sequence [.typed 2, .optional (.typed 1)])
  [0x30, 0x03, 0x02, 0x01, 0x05, 9] [9] [9] _ _ ((C96_exact _ timesKnown_D0 _ _ _ _ _).1 rfl) ((C96_exact _ timesKnown_D0 _ _ _ _ _).1 rfl)

/-- C96: whatever is not specified is answered with an error. -/
theorem C96_rejected (D : Deps) (hT : TimesKnown D) (R : Rules) (s : Schema) (i : Bytes) :
    (∃ e, s.run D R i = .err e) ↔ ∀ rem o, ¬ Accepts D R s i rem o := by
  constructor
  · rintro ⟨e, he⟩ rem o h
    rw [(schema_iff D hT R s i rem o).2 h] at he
    simp at he
  · intro h
    have ht := schema_total D R s i
    cases hr : s.run D R i with
    | ok x => exact absurd ((schema_iff D hT R s i x.1 x.2).1 hr) (h _ _)
    | err e => exact ⟨e, rfl⟩
    | panic => rw [hr] at ht; exact absurd ht id
    | diverge => rw [hr] at ht; exact absurd ht id

example := (C96_rejected Tests.D0 timesKnown_D0 .der (.sequence [.typed 2, .typed 1]) [0x30, 0x03, 0x02, 0x01, 0x05, 9]).1 ⟨_, rfl⟩

/-- C96: a SEQUENCE OF or SET OF an optional type accepts nothing, not even the empty one. -/
theorem C96_of_optional (D : Deps) (R : Rules) (s : Schema) (hs : s.isOptional = true) (i : Bytes)
    (x : Bytes × BerObject) :
    (Schema.sequenceOf s).run D R i ≠ .ok x ∧ (Schema.setOf s).run D R i ≠ .ok x := by
  constructor
  · intro h
    simp only [Schema.run, Verif.sequenceOf, mapRes] at h
    obtain ⟨y, h1, _⟩ := bind_eq_ok.1 h
    exact ofV_always_ok (schema_optional_ok D R s hs) R _ i y h1
  · intro h
    simp only [Schema.run, Verif.setOf, mapRes] at h
    obtain ⟨y, h1, _⟩ := bind_eq_ok.1 h
    exact ofV_always_ok (schema_optional_ok D R s hs) R _ i y h1

example := C96_of_optional Tests.D0 .der (.optional (.typed 1)) rfl [0x30, 0x00] ([], .fromSeq [])

/-! ## C98: DER and BER -/

mutual
/-- No optional part anywhere. -/
def Spec.Mandatory : Schema → Prop
  | .any | .typed _ | .choice _ _ | .implicit _ _ => True
  | .sequenceOf s | .setOf s | .explicit _ s => Mandatory s
  | .sequence l | .set l => MandatoryAll l
  | .optional _ | .explicitOptional _ _ => False
def Spec.MandatoryAll : List Schema → Prop
  | [] => True
  | s :: l => Mandatory s ∧ MandatoryAll l
end

theorem framedBy_der_ber {i rem c : Bytes} {h : Header} (hF : FramedBy .der i rem h c) :
    FramedBy .ber i rem h c := by
  obtain ⟨hb, h1, h2, h3⟩ := hF
  exact ⟨hb ++ c, h1, .definite _ _ _ h2.toBerHeader h3⟩

theorem framedBy_der_length {i rem c : Bytes} {h : Header} (hF : FramedBy .der i rem h c) :
    c.length ≤ i.length ∧ h.length = .definite c.length := by
  obtain ⟨hb, rfl, _, h3⟩ := hF
  refine ⟨?_, h3⟩
  simp only [List.length_append]
  omega

theorem typedBy_der_ber {D : Deps} {tag t : Nat} {i rem : Bytes} {o : BerObject} (hi : i.length < 2 ^ 32)
    (h : TypedBy D .der tag t i rem o) : TypedBy D .ber tag t i rem o := by
  obtain ⟨c, h1, h2, h3, h4, h5⟩ := h
  refine ⟨c, framedBy_der_ber h1, h2, fun l hl => .inl ?_, by simp, h5⟩
  obtain ⟨h6, h7⟩ := framedBy_der_length h1
  rw [h7] at hl
  cases hl
  omega

theorem rustEq_mk {h : Header} {x y : Content} (hxy : x.rustEq y = true) :
    (BerObject.mk h x).rustEq (.mk h y) = true := by
  have := rustEq_refl_obj (.mk h .null)
  simp only [BerObject.rustEq, Bool.and_eq_true] at this ⊢
  exact ⟨this.1, hxy⟩

theorem several_der_ber (D : Deps) (hT : TimesKnown D) (s : Schema)
    (ih : ∀ (i rem : Bytes) (o : BerObject), i.length < 2 ^ 32 → Accepts D .der s i rem o →
      ∃ o', Accepts D .ber s i rem o' ∧ o.rustEq o' = true)
    (c : Bytes) (vs : List BerObject) (hc : c.length < 2 ^ 32) (h : Several (Accepts D .der s) c vs) :
    ∃ vs', Several (Accepts D .ber s) c vs' ∧ listRustEq vs vs' = true := by
  induction h with
  | nil => exact ⟨[], .nil, by simp [listRustEq]⟩
  | cons i rem v vs h1 _ ih2 =>
    have hm := schema_length D .der s i rem v ((schema_iff D hT .der s i rem v).2 h1)
    obtain ⟨v', h3, h4⟩ := ih i rem v hc h1
    obtain ⟨vs', h5, h6⟩ := ih2 (by omega)
    exact ⟨v' :: vs', .cons _ _ _ _ h3 h5, by simp [listRustEq, h4, h6]⟩

mutual
theorem schema_der_ber (D : Deps) (hT : TimesKnown D) : ∀ (s : Schema), Mandatory s → ∀ (i rem : Bytes)
    (o : BerObject), i.length < 2 ^ 32 → Accepts D .der s i rem o →
      ∃ o', Accepts D .ber s i rem o' ∧ o.rustEq o' = true
  | .any, _, i, rem, o, hi, h => by
    obtain ⟨o', h1, h2, _⟩ := C36_parse_der_partial D hT 49 i rem o ((anyBy_der hT).2 h)
    exact ⟨o', anyBy_ber.1 h1, h2⟩
  | .typed t, _, i, rem, o, hi, h => ⟨o, typedBy_der_ber hi h, rustEq_refl_obj o⟩
  | .choice t ts, _, i, rem, o, hi, h => by
    simp only [Accepts] at h ⊢
    obtain ⟨t', h1, h2⟩ := h
    exact ⟨o, ⟨t', h1, typedBy_der_ber hi h2⟩, rustEq_refl_obj o⟩
  | .implicit t y, _, i, rem, o, hi, h => by
    simp only [Accepts] at h ⊢
    exact ⟨o, ⟨typedBy_der_ber hi h.1, h.2⟩, rustEq_refl_obj o⟩
  | .sequenceOf s, hs, i, rem, o, hi, h => by
    simp only [Accepts, Mandatory] at h hs ⊢
    obtain ⟨hd, c, vs, h1, h2, h3, h4, rfl⟩ := h
    obtain ⟨h5, _⟩ := framedBy_der_length h1
    obtain ⟨vs', h6, h7⟩ := several_der_ber D hT s (schema_der_ber D hT s hs) c vs (by omega) h4
    exact ⟨_, ⟨hd, c, vs', framedBy_der_ber h1, h2, h3, h6, rfl⟩, rustEq_mk (by
      simpa only [Content.rustEq] using h7)⟩
  | .setOf s, hs, i, rem, o, hi, h => by
    simp only [Accepts, Mandatory] at h hs ⊢
    obtain ⟨hd, c, vs, h1, h2, h3, h4, rfl⟩ := h
    obtain ⟨h5, _⟩ := framedBy_der_length h1
    obtain ⟨vs', h6, h7⟩ := several_der_ber D hT s (schema_der_ber D hT s hs) c vs (by omega) h4
    exact ⟨_, ⟨hd, c, vs', framedBy_der_ber h1, h2, h3, h6, rfl⟩, rustEq_mk (by
      simpa only [Content.rustEq] using h7)⟩
  | .sequence l, hs, i, rem, o, hi, h => by
    simp only [Accepts, Mandatory] at h hs ⊢
    obtain ⟨hd, c, rem', vs, h1, h2, h4, rfl⟩ := h
    obtain ⟨h5, _⟩ := framedBy_der_length h1
    obtain ⟨vs', h6, h7⟩ := schema_all_der_ber D hT l hs c rem' vs (by omega) h4
    exact ⟨_, ⟨hd, c, rem', vs', framedBy_der_ber h1, h2, h6, rfl⟩, rustEq_mk (by
      simpa only [Content.rustEq] using h7)⟩
  | .set l, hs, i, rem, o, hi, h => by
    simp only [Accepts, Mandatory] at h hs ⊢
    obtain ⟨hd, c, rem', vs, h1, h2, h4, rfl⟩ := h
    obtain ⟨h5, _⟩ := framedBy_der_length h1
    obtain ⟨vs', h6, h7⟩ := schema_all_der_ber D hT l hs c rem' vs (by omega) h4
    exact ⟨_, ⟨hd, c, rem', vs', framedBy_der_ber h1, h2, h6, rfl⟩, rustEq_mk (by
      simpa only [Content.rustEq] using h7)⟩
  | .explicit t s, hs, i, rem, o, hi, h => by
    simp only [Accepts, Mandatory] at h hs ⊢
    obtain ⟨hd, c, rem', o1, h1, h2, h3, h4, h5, rfl⟩ := h
    obtain ⟨h6, _⟩ := framedBy_der_length h1
    obtain ⟨o', h7, h8⟩ := schema_der_ber D hT s hs c rem' o1 (by omega) h5
    exact ⟨_, ⟨hd, c, rem', o', framedBy_der_ber h1, h2, h3, h4, h7, rfl⟩, rustEq_mk (by
      simp [Content.rustEq, h8])⟩
  | .optional _, hs, _, _, _, _, _ => by simp [Mandatory] at hs
  | .explicitOptional _ _, hs, _, _, _, _, _ => by simp [Mandatory] at hs
theorem schema_all_der_ber (D : Deps) (hT : TimesKnown D) : ∀ (l : List Schema), MandatoryAll l →
    ∀ (i rem : Bytes) (vs : List BerObject), i.length < 2 ^ 32 → AcceptsAll D .der l i rem vs →
      ∃ vs', AcceptsAll D .ber l i rem vs' ∧ listRustEq vs vs' = true
  | [], _, i, rem, vs, _, h => by
    simp only [AcceptsAll] at h ⊢
    obtain ⟨rfl, rfl⟩ := h
    exact ⟨[], ⟨rfl, rfl⟩, by simp [listRustEq]⟩
  | s :: l, hs, i, rem, vs, hi, h => by
    simp only [AcceptsAll, MandatoryAll] at h hs ⊢
    obtain ⟨mid, v, ws, h1, h2, rfl⟩ := h
    have hm := schema_length D .der s i mid v ((schema_iff D hT .der s i mid v).2 h1)
    obtain ⟨v', h3, h4⟩ := schema_der_ber D hT s hs.1 i mid v hi h1
    obtain ⟨ws', h5, h6⟩ := schema_all_der_ber D hT l hs.2 mid rem ws (by omega) h2
    exact ⟨v' :: ws', ⟨mid, v', ws', h3, h5, rfl⟩, by simp [listRustEq, h4, h6]⟩
end

/-- C98 in full: whatever a composition accepts by DER it accepts by BER, with the same remainder and an equal
object. -/
def C98Statement : Prop :=
  ∀ (D : Deps) (_ : TimesKnown D) (s : Schema) (i rem : Bytes) (o : BerObject),
    s.run D .der i = .ok (rem, o) → ∃ o', s.run D .ber i = .ok (rem, o') ∧ o.rustEq o' = true

/-- C98 is false for optional parts: what is an error by DER is an absent option.  A SEQUENCE with one optional
BOOLEAN whose contents octet is `05` is accepted as empty. -/
theorem C98_optional_counterexample : ¬ C98Statement := by
  intro h
  obtain ⟨o', h1, h2⟩ := h Tests.D0 timesKnown_D0 (.sequence [.optional (.typed 1)]) [0x30, 0x03, 0x01, 0x01, 0x05]
    [] (.fromSeq [.fromObj .optionalNone]) rfl
  have h3 : (Schema.sequence [.optional (.typed 1)]).run Tests.D0 .ber [0x30, 0x03, 0x01, 0x01, 0x05] =
    .ok ([], .fromSeq [.mk ⟨.universal, false, 1, .definite 1, some [1]⟩ (.optionalSome
      (.mk ⟨.universal, false, 1, .definite 1, some [1]⟩ (.boolean true)))]) := rfl
  rw [h3] at h1
  simp only [ok.injEq, Prod.mk.injEq, true_and] at h1
  subst h1
  revert h2
  decide +kernel

/-- C98, what holds: for compositions without an optional part, on inputs shorter than 2^32 octets.  Missing:
optional parts; BIT STRINGs of 2^32 octets or more, which the DER functions do not limit. -/
theorem C98_der_ber_partial (D : Deps) (hT : TimesKnown D) (s : Schema) (hs : Mandatory s) (i rem : Bytes)
    (o : BerObject) (hi : i.length < 2 ^ 32) (h : s.run D .der i = .ok (rem, o)) :
    ∃ o', s.run D .ber i = .ok (rem, o') ∧ o.rustEq o' = true := by
  obtain ⟨o', h1, h2⟩ := schema_der_ber D hT s hs i rem o hi ((schema_iff D hT .der s i rem o).1 h)
  exact ⟨o', (schema_iff D hT .ber s i rem o').2 h1, h2⟩

example := C98_der_ber_partial Tests.D0 timesKnown_D0 (.sequence [.typed 2, .choice 12 [19]])
  (by simp [Mandatory, MandatoryAll]) [0x30, 0x05, 0x02, 0x01, 0x05, 0x0c, 0x00, 9] [9] _ (by decide) rfl

/-- X.501 `Name` as in /repo/tests/der_parser.rs:524-551. -/
def nameSchema : Schema := .sequenceOf (.setOf (.sequence [.typed 6, .choice 12 [19, 22]]))

/-- The first RDN of the test: countryName = FR. -/
example : nameSchema.run Tests.D0 .der
    [0x30, 0x0d, 0x31, 0x0b, 0x30, 0x09, 0x06, 0x03, 0x55, 0x04, 0x06, 0x13, 0x02, 0x46, 0x52, 0xff] =
    .ok ([0xff], .fromSeq [.fromSet [.fromSeq [
      .mk ⟨.universal, false, 6, .definite 3, some [6]⟩ (.oid [0x55, 0x04, 0x06]),
      .mk ⟨.universal, false, 19, .definite 2, some [0x13]⟩ (.str .printable [0x46, 0x52])]]]) := rfl

example : Mandatory nameSchema := by simp [nameSchema, Mandatory, MandatoryAll]
example : nameSchema.isOptional = false := rfl

end Verif
