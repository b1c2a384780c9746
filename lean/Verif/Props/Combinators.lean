import Verif.Props.Der
import Verif.Props.Total
/-!
# Combinators: C37 to C42, C59
-/
namespace Verif
open Outcome Spec

section
variable {E O T : Type} [ParseErr E]

/-! ## Framing -/

/-- The input is one element followed by `rem`; the element has header `h` and contents octets `c`.
For the DER functions the length must be definite. -/
def Spec.FramedBy (R : Rules) (i rem : Bytes) (h : Header) (c : Bytes) : Prop :=
  match R with
  | .ber => ∃ e, i = e ++ rem ∧ Framed 50 e h c
  | .der => ∃ hb, i = hb ++ c ++ rem ∧ DerHeader hb h ∧ h.length = .definite c.length

theorem frame_iff {R : Rules} {i rem c : Bytes} {h : Header} :
    (frame R i : IRes E (Header × Bytes)) = .ok (rem, (h, c)) ↔ FramedBy R i rem h c := by
  cases R with
  | ber =>
    constructor
    · intro hh
      obtain ⟨i1, h1, h2⟩ := frame_ok hh
      have h3 : anyFromBer i = .ok (rem, ⟨h, c⟩) := by
        unfold anyFromBer
        rw [show headerFromBer i = .ok (i1, h) from h1]
        simp only [ok_bind]
        have : getObjectContent maxRecursion h i1 = .ok (rem, c) := by
          cases hl : h.length with
          | definite L =>
            simp only [frameContent, hl] at h2
            obtain ⟨rfl, rfl⟩ := takeComplete_ok h2
            exact getObjectContent_definite (d := 49) hl c rem rfl
          | indefinite => simpa [frameContent, hl] using h2
        rw [this]
        rfl
      exact anyFromBer_framed.1 h3
    · intro hh
      obtain ⟨i1, h1, h2⟩ := anyFromBer_ok (anyFromBer_framed.2 hh : anyFromBer i = .ok (rem, ⟨h, c⟩))
      rw [frame_eq]
      simp only [frameHeader, h1, convertErr_ok, ok_bind]
      cases hl : h.length with
      | definite L =>
        obtain ⟨rfl, rfl⟩ := getObjectContent_def_len hl h2
        simp [frameContent, hl, takeComplete_append]
      | indefinite =>
        simp only [frameContent, hl]
        rw [h2]
        rfl
  | der =>
    constructor
    · intro hh
      obtain ⟨i1, h1, h2⟩ := frame_ok hh
      obtain ⟨hb, rfl, H⟩ := headerFromDer_iff.1 h1
      cases hl : h.length with
      | definite L =>
        simp only [frameContent, hl] at h2
        obtain ⟨rfl, rfl⟩ := takeComplete_ok h2
        exact ⟨hb, by simp, H, hl⟩
      | indefinite => exact absurd hl H.definite
    · rintro ⟨hb, rfl, H, hl⟩
      rw [frame_eq]
      simp only [frameHeader]
      rw [List.append_assoc, derHeader_reads H]
      simp [frameContent, hl, takeComplete_append]

/-! ## C38 -/

/-- C38: on an element followed by anything, the closure is run on exactly the contents octets and
the header; its value, error or panic is the answer; the remainder is what follows the element,
whatever remainder the closure gives. -/
theorem C38_container (R : Rules) (f : Bytes → Header → IRes E O) (i rem c : Bytes) (h : Header)
    (hF : FramedBy R i rem h c) :
    container R f i = (f c h >>? fun r => .ok (rem, r.2)) := by
  unfold container
  rw [frame_iff.2 hF]
  rfl

/-- C38: a success comes from such an element. -/
theorem C38_container_ok (R : Rules) (f : Bytes → Header → IRes E O) (i rem : Bytes) (v : O) :
    container R f i = .ok (rem, v) ↔
      ∃ h c rem', FramedBy R i rem h c ∧ f c h = .ok (rem', v) := by
  rw [container_ok]
  constructor
  · rintro ⟨h, c, rem', h1, h2⟩; exact ⟨h, c, rem', frame_iff.1 h1, h2⟩
  · rintro ⟨h, c, rem', h1, h2⟩; exact ⟨h, c, rem', frame_iff.2 h1, h2⟩

example := (C38_container_ok .ber (fun c _ => (.ok ([], c.length) : IRes BerError Nat)) [0x30, 0x02, 0x05, 0x00, 9] [9] 2).1 rfl

/-- C38: when the input does not start with an element the closure is not run: the answer does not
depend on it, and is an error. -/
theorem C38_container_not_run (R : Rules) (f g : Bytes → Header → IRes E O) (i : Bytes)
    (hN : ¬ ∃ rem h c, FramedBy R i rem h c) :
    container R f i = container R g i ∧ ∃ e, container R f i = .err e := by
  unfold container
  cases hf : (frame R i : IRes E (Header × Bytes)) with
  | ok r =>
    obtain ⟨rem, h, c⟩ := r
    exact absurd ⟨rem, h, c, frame_iff.1 hf⟩ hN
  | err e => exact ⟨rfl, e, rfl⟩
  | panic => have := returns_frame (E := E) R i; rw [hf] at this; exact absurd this id
  | diverge => have := returns_frame (E := E) R i; rw [hf] at this; exact absurd this id

/-- The contents are cut short. -/
example (f g : Bytes → Header → IRes BerError Nat) := C38_container_not_run .ber f g [0x30, 0x02, 0x05] (by
  rintro ⟨rem, h, c, hF⟩
  cases (frame_iff (E := BerError)).2 hF)

/-- C38: the closure cannot see past the element: the answer up to the remainder does not depend
on the bytes that follow. -/
theorem C38_container_local (R : Rules) (f : Bytes → Header → IRes E O) (e c x y : Bytes)
    (h : Header) (hF : FramedBy R e [] h c) :
    (container R f (e ++ x)).map (·.2) = (container R f (e ++ y)).map (·.2) := by
  have key : ∀ z, FramedBy R (e ++ z) z h c := by
    intro z
    cases R with
    | ber => obtain ⟨e', h1, h2⟩ := hF; exact ⟨e', by rw [h1]; simp, h2⟩
    | der => obtain ⟨hb, h1, h2⟩ := hF; exact ⟨hb, by rw [h1]; simp, h2⟩
  rw [C38_container R f _ x c h (key x), C38_container R f _ y c h (key y)]
  cases f c h <;> rfl

example (f : Bytes → Header → IRes BerError Nat) := C38_container_local .ber f [0x30, 0x80, 0x05, 0x00, 0, 0] _ [1] [2, 3] _
  ((frame_iff (E := BerError)).1 rfl)

/-- C38: `parse_*_sequence_defined_g`, `parse_*_set_defined_g`: the tag number is checked first. -/
theorem C38_defined (R : Rules) (tag : Nat) (f : Bytes → Header → IRes E O) (i rem c : Bytes)
    (h : Header) (hF : FramedBy R i rem h c) :
    definedG R tag f i =
      if h.tag = tag then (f c h >>? fun r => .ok (rem, r.2))
      else .err (.error (ParseErr.ofBer (.unexpectedTag (some tag) h.tag))) := by
  unfold definedG
  rw [C38_container R _ i rem c h hF]
  unfold Header.assertTag
  split <;> rfl

example : FramedBy .ber [0x30, 0x03, 0x02, 0x01, 0x05, 0xaa, 0xbb] [0xaa, 0xbb]
    ⟨.universal, true, 16, .definite 3, some [0x30]⟩ [0x02, 0x01, 0x05] :=
  (frame_iff (E := BerError)).1 rfl
example : definedG (E := BerError) .der 16 (fun c _ => .ok (0xcc :: c, c.length))
    [0x30, 0x03, 0x02, 0x01, 0x05, 0xaa, 0xbb] = .ok ([0xaa, 0xbb], 3) := rfl

/-! ## C37 -/

/-- `c` is read by `f`, piece after piece, up to its end, giving `vs`. -/
inductive Spec.Chain (f : Bytes → IRes E T) : Bytes → List T → Prop
  | nil : Chain f [] []
  | cons (i rem : Bytes) (v : T) (vs : List T) : f i = .ok (rem, v) → rem.length < i.length →
      Chain f rem vs → Chain f i (v :: vs)

/-- C37 in full, for element parsers that never answer a remainder longer than their input:
success is exactly "the contents octets are read by `f` up to their end". -/
def C37Statement : Prop :=
  ∀ (E T : Type) [ParseErr E] (R : Rules) (tag : Nat) (f : Bytes → IRes E T) (i rem : Bytes)
    (vs : List T), (∀ j r v, f j = .ok (r, v) → r.length ≤ j.length) →
    (ofV R tag f i = .ok (rem, vs) ↔
      ∃ h c, FramedBy R i rem h c ∧ h.tag = tag ∧ Chain f c vs)

/-- C37 is false for element parsers answering an empty input with an error: `cut` turns it into a
failure and the whole parse fails, although every element was read. -/
theorem C37_empty_error_counterexample : ¬ C37Statement := by
  intro h
  let f : Bytes → IRes BerError UInt8 := fun j =>
    match j with
    | [] => .err (.error (.nomError .eof))
    | b :: r => .ok (r, b)
  have hf : ∀ j r v, f j = .ok (r, v) → r.length ≤ j.length := by
    intro j r v hh
    cases j with
    | nil => simp [f] at hh
    | cons b r' =>
      simp only [f, ok.injEq, Prod.mk.injEq] at hh
      rw [← hh.1]; simp
  have := (h BerError UInt8 .ber 16 f [0x30, 0x01, 0x41] [] [0x41] hf).2
    ⟨⟨.universal, true, 16, .definite 1, some [0x30]⟩, [0x41],
      (frame_iff (E := BerError)).1 rfl, rfl, .cons _ [] _ _ rfl (by decide) .nil⟩
  have h2 : ofV .ber 16 f [0x30, 0x01, 0x41] = .err (.failure (.nomError .eof)) := rfl
  rw [h2] at this
  simp at this

theorem many0_chain {f : Bytes → IRes E T} (hf : ∀ j r v, f j = .ok (r, v) → r.length ≤ j.length)
    {n : Needed} (he : f [] = .err (.incomplete n)) {fuel : Nat} {c : Bytes} {vs : List T}
    (hfuel : c.length < fuel) :
    many0 (complete (cut f)) fuel c = .ok ([], vs) ↔ Chain f c vs := by
  induction fuel generalizing c vs with
  | zero => omega
  | succ fuel ih =>
    unfold many0
    cases hc : f c with
    | ok r =>
      obtain ⟨r1, v⟩ := r
      have hcc := complete_cut_ok.2 hc
      rw [hcc]
      simp only
      have hle := hf c r1 v hc
      by_cases heq : r1.length = c.length
      · rw [if_pos heq]
        constructor
        · intro hh; simp at hh
        · intro hh
          cases hh with
          | nil => rw [he] at hc; simp at hc
          | cons _ r' v' vs' h1 h2 h3 =>
            rw [hc] at h1
            simp only [ok.injEq, Prod.mk.injEq] at h1
            obtain ⟨rfl, rfl⟩ := h1
            omega
      · rw [if_neg heq]
        constructor
        · intro hh
          obtain ⟨⟨r2, vs'⟩, h1, h2⟩ := bind_eq_ok.1 hh
          simp only [ok.injEq, Prod.mk.injEq] at h2
          obtain ⟨rfl, rfl⟩ := h2
          exact .cons c r1 v vs' hc (by omega) ((ih (by omega)).1 h1)
        · intro hh
          cases hh with
          | nil => rw [he] at hc; simp at hc
          | cons _ r' v' vs' h1 h2 h3 =>
            rw [hc] at h1
            simp only [ok.injEq, Prod.mk.injEq] at h1
            obtain ⟨rfl, rfl⟩ := h1
            rw [(ih (by omega)).2 h3]
            rfl
    | err e =>
      have hno : ∀ v vs', vs = v :: vs' → ¬ Chain f c vs := by
        intro v vs' hv hh
        subst hv
        cases hh with
        | cons _ r' _ _ h1 => rw [hc] at h1; simp at h1
      cases e with
      | incomplete n' =>
        have hcc : complete (cut f) c = .err (.error (ParseErr.ofKind c .complete)) := by
          simp [complete, cut, hc]
        rw [hcc]
        simp only [ok.injEq, Prod.mk.injEq]
        constructor
        · rintro ⟨rfl, rfl⟩; exact .nil
        · intro hh
          cases hh with
          | nil => exact ⟨rfl, rfl⟩
          | cons _ r' _ _ h1 => rw [hc] at h1; simp at h1
      | error e =>
        have hcc : complete (cut f) c = .err (.failure e) := by simp [complete, cut, hc]
        rw [hcc]
        simp only [reduceCtorEq, false_iff]
        intro hh
        cases hh with
        | nil => rw [he] at hc; simp at hc
        | cons _ r' _ _ h1 => rw [hc] at h1; simp at h1
      | failure e =>
        have hcc : complete (cut f) c = .err (.failure e) := by simp [complete, cut, hc]
        rw [hcc]
        simp only [reduceCtorEq, false_iff]
        intro hh
        cases hh with
        | nil => rw [he] at hc; simp at hc
        | cons _ r' _ _ h1 => rw [hc] at h1; simp at h1
    | panic =>
      have hcc : complete (cut f) c = .panic := by simp [complete, cut, hc]
      rw [hcc]
      simp only [reduceCtorEq, false_iff]
      intro hh
      cases hh with
      | nil => rw [he] at hc; simp at hc
      | cons _ r' _ _ h1 => rw [hc] at h1; simp at h1
    | diverge =>
      have hcc : complete (cut f) c = .diverge := by simp [complete, cut, hc]
      rw [hcc]
      simp only [reduceCtorEq, false_iff]
      intro hh
      cases hh with
      | nil => rw [he] at hc; simp at hc
      | cons _ r' _ _ h1 => rw [hc] at h1; simp at h1

/-- C37, what holds: for element parsers that answer the empty input with `Incomplete` (as every
parser of this library does, `C37_library_parsers_empty`).  Missing: element parsers that answer
the empty input with an error. -/
theorem C37_of_v_partial (R : Rules) (tag : Nat) (f : Bytes → IRes E T) (i rem : Bytes)
    (vs : List T) (hf : ∀ j r v, f j = .ok (r, v) → r.length ≤ j.length)
    (he : ∃ n, f [] = .err (.incomplete n)) :
    ofV R tag f i = .ok (rem, vs) ↔
      ∃ h c, FramedBy R i rem h c ∧ h.tag = tag ∧ Chain f c vs := by
  obtain ⟨n, he⟩ := he
  have hsub : ∀ (c rem' : Bytes) (vs : List T), ofSubparser f c = .ok (rem', vs) ↔
      rem' = [] ∧ Chain f c vs := by
    intro c rem' vs
    unfold ofSubparser allConsuming
    constructor
    · intro hh
      obtain ⟨⟨r, ws⟩, h1, h2⟩ := bind_eq_ok.1 hh
      simp only at h2
      cases r with
      | nil =>
        simp only [ok.injEq, Prod.mk.injEq] at h2
        obtain ⟨rfl, rfl⟩ := h2
        exact ⟨rfl, (many0_chain hf he (by omega)).1 h1⟩
      | cons _ _ => simp at h2
    · rintro ⟨rfl, hh⟩
      rw [(many0_chain hf he (by omega)).2 hh]
      rfl
  unfold ofV definedG
  rw [C38_container_ok]
  constructor
  · rintro ⟨h, c, rem', h1, h2⟩
    obtain ⟨_, h3, h4⟩ := bind_eq_ok.1 h2
    refine ⟨h, c, h1, ?_, ((hsub _ _ _).1 h4).2⟩
    rw [liftResE_eq_ok] at h3
    unfold Header.assertTag at h3
    split at h3
    · assumption
    · simp at h3
  · rintro ⟨h, c, h1, h2, h3⟩
    refine ⟨h, c, [], h1, ?_⟩
    rw [show h.assertTag tag = .ok () by simp [Header.assertTag, h2]]
    simp only [liftResE_ok, ok_bind]
    exact (hsub _ _ _).2 ⟨rfl, h3⟩

omit [ParseErr E] in
/-- C37: for a parser that reads a prefix whatever follows (as those of this library, C05/C10), the
contents octets are the concatenation of the pieces, each parsed alone to its value. -/
theorem C37_pieces (f : Bytes → IRes E T) (hf : Local f) (c : Bytes) (vs : List T) :
    Chain f c vs ↔ ∃ ps : List (Bytes × T), c = ps.flatMap (·.1) ∧ vs = ps.map (·.2) ∧
      ∀ p ∈ ps, p.1 ≠ [] ∧ ∀ x, f (p.1 ++ x) = .ok (x, p.2) := by
  constructor
  · intro h
    induction h with
    | nil => exact ⟨[], by simp⟩
    | cons i rem v vs h1 h2 _ ih =>
      obtain ⟨ps, e1, e2, e3⟩ := ih
      obtain ⟨pre, rfl, h4⟩ := hf i rem v h1
      refine ⟨(pre, v) :: ps, by simp [e1], by simp [e2], ?_⟩
      intro p hp
      rcases List.mem_cons.1 hp with rfl | hp
      · refine ⟨?_, h4⟩
        rintro rfl
        simp at h2
      · exact e3 p hp
  · rintro ⟨ps, rfl, rfl, h⟩
    induction ps with
    | nil => exact .nil
    | cons p ps ih =>
      have h1 := h p (by simp)
      refine .cons _ (ps.flatMap (·.1)) _ _ (by
        rw [List.flatMap_cons]; exact h1.2 _) ?_ (ih fun q hq => h q (by simp [hq]))
      rw [List.flatMap_cons, List.length_append]
      have := List.length_pos_iff.2 h1.1
      omega

/-- A parser of one octet at a time. -/
example := C37_pieces (E := BerError) (fun | [] => .err (.incomplete (.size 1)) | b :: r => .ok (r, b.toNat))
  (by
    rintro (_ | ⟨b, r⟩) rem v h
    · cases h
    · cases h; exact ⟨[b], rfl, fun x => rfl⟩) [7, 8] [7, 8]

/-- C37: `parse_ber`, `parse_der` and the typed parsers answer the empty input with `Incomplete`. -/
theorem C37_library_parsers_empty (D : Deps) (d tag : Nat) :
    (∃ n, parseBerRecursive D (d + 1) [] = .err (.incomplete n)) ∧
    (∃ n, parseDerRecursive D d [] = .err (.incomplete n)) ∧
    (∃ n, parseBerWithTag D tag [] = .err (.incomplete n)) ∧
    (∃ n, parseDerWithTag D tag [] = .err (.incomplete n)) :=
  ⟨⟨.size 1, rfl⟩, ⟨.size 1, rfl⟩, ⟨.size 1, rfl⟩, ⟨.size 1, rfl⟩⟩

end

/-- C37: `parse_*_sequence_of`, `parse_*_set_of`: the object holds all elements, in order. -/
theorem C37_object_versions_partial (R : Rules) (f : Bytes → IRes BerError BerObject) (i rem : Bytes)
    (o : BerObject) (hf : ∀ j r v, f j = .ok (r, v) → r.length ≤ j.length)
    (he : ∃ n, f [] = .err (.incomplete n)) :
    (sequenceOf R f i = .ok (rem, o) ↔ ∃ h c vs, FramedBy R i rem h c ∧ h.tag = 16 ∧
      Chain f c vs ∧ o = .fromSeq vs) ∧
    (setOf R f i = .ok (rem, o) ↔ ∃ h c vs, FramedBy R i rem h c ∧ h.tag = 17 ∧
      Chain f c vs ∧ o = .fromSet vs) := by
  constructor
  · unfold sequenceOf mapRes
    rw [bind_eq_ok]
    constructor
    · rintro ⟨⟨r, vs⟩, h1, h2⟩
      simp only [ok.injEq, Prod.mk.injEq] at h2
      obtain ⟨rfl, rfl⟩ := h2
      obtain ⟨h, c, g1, g2, g3⟩ := (C37_of_v_partial R _ f i r vs hf he).1 h1
      exact ⟨h, c, vs, g1, g2, g3, rfl⟩
    · rintro ⟨h, c, vs, g1, g2, g3, rfl⟩
      exact ⟨(rem, vs), (C37_of_v_partial R _ f i rem vs hf he).2 ⟨h, c, g1, g2, g3⟩, rfl⟩
  · unfold setOf mapRes
    rw [bind_eq_ok]
    constructor
    · rintro ⟨⟨r, vs⟩, h1, h2⟩
      simp only [ok.injEq, Prod.mk.injEq] at h2
      obtain ⟨rfl, rfl⟩ := h2
      obtain ⟨h, c, g1, g2, g3⟩ := (C37_of_v_partial R _ f i r vs hf he).1 h1
      exact ⟨h, c, vs, g1, g2, g3, rfl⟩
    · rintro ⟨h, c, vs, g1, g2, g3, rfl⟩
      exact ⟨(rem, vs), (C37_of_v_partial R _ f i rem vs hf he).2 ⟨h, c, g1, g2, g3⟩, rfl⟩

example : Chain (parseBerWithTag Tests.D0 2) [0x02, 0x01, 0x05, 0x02, 0x01, 0x06]
    [.mk ⟨.universal, false, 2, .definite 1, some [2]⟩ (.integer [5]),
     .mk ⟨.universal, false, 2, .definite 1, some [2]⟩ (.integer [6])] :=
  .cons _ [0x02, 0x01, 0x06] _ _ rfl (by decide) (.cons _ [] _ _ rfl (by decide) .nil)

/-! ## C39 -/

section
variable {E O : Type} [ParseErr E]

/-- C39: on an element, `parse_*_tagged_explicit_g` checks class, tag number and form, in this
order, and only then runs the closure, on exactly the contents octets. -/
theorem C39_explicit (R : Rules) (tag : Nat) (f : Bytes → Header → IRes E O) (i rem c : Bytes)
    (h : Header) (hF : FramedBy R i rem h c) :
    taggedExplicitG R tag f i =
      if h.cls = .universal then .err (.error (ParseErr.ofBer (.unexpectedClass none .universal)))
      else if h.tag ≠ tag then .err (.error (ParseErr.ofBer (.unexpectedTag (some tag) h.tag)))
      else if h.constructed = false then .err (.error (ParseErr.ofBer .constructExpected))
      else (f c h >>? fun r => .ok (rem, r.2)) := by
  unfold taggedExplicitG
  rw [C38_container R _ i rem c h hF]
  by_cases h1 : h.cls = .universal
  · simp [h1]
  · by_cases h2 : h.tag = tag
    · by_cases h3 : h.constructed = true
      · simp [h1, h2, h3, Header.assertTag, Header.assertConstructed]
      · simp [h1, h2, h3, Header.assertTag, Header.assertConstructed, liftResE]
    · simp [h1, h2, Header.assertTag, liftResE]

/-- C39: so a success comes from a constructed, non-universal element with that tag number. -/
theorem C39_explicit_ok (R : Rules) (tag : Nat) (f : Bytes → Header → IRes E O) (i rem : Bytes)
    (v : O) :
    taggedExplicitG R tag f i = .ok (rem, v) ↔ ∃ h c rem', FramedBy R i rem h c ∧
      h.cls ≠ .universal ∧ h.tag = tag ∧ h.constructed = true ∧ f c h = .ok (rem', v) := by
  constructor
  · intro hh
    have hh0 := hh
    unfold taggedExplicitG at hh0
    obtain ⟨h, c, rem', h1, _⟩ := (C38_container_ok R _ i rem v).1 hh0
    rw [C39_explicit R tag f i rem c h h1] at hh
    split at hh
    · simp at hh
    · rename_i g1
      split at hh
      · simp at hh
      · rename_i g2
        split at hh
        · simp at hh
        · rename_i g3
          obtain ⟨⟨r, w⟩, g4, g5⟩ := bind_eq_ok.1 hh
          simp only [ok.injEq, Prod.mk.injEq, true_and] at g5
          subst g5
          exact ⟨h, c, r, h1, g1, by simpa using g2, by simpa using g3, g4⟩
  · rintro ⟨h, c, rem', h1, h2, h3, h4, h5⟩
    rw [C39_explicit R tag f i rem c h h1, if_neg h2, if_neg (by simpa using h3),
      if_neg (by simp [h4]), h5]
    rfl

end

/-- C39: `parse_*_tagged_explicit` wraps the inner object with class and tag number. -/
theorem C39_explicit_object (R : Rules) (tag : Nat) (f : Bytes → IRes BerError BerObject)
    (i rem : Bytes) (o : BerObject) :
    taggedExplicit R tag f i = .ok (rem, o) ↔ ∃ h c rem' o1, FramedBy R i rem h c ∧
      h.cls ≠ .universal ∧ h.tag = tag ∧ h.constructed = true ∧ f c = .ok (rem', o1) ∧
      o = .mk h (.tagged h.cls tag o1) := by
  unfold taggedExplicit
  rw [C39_explicit_ok]
  constructor
  · rintro ⟨h, c, rem', h1, h2, h3, h4, h5⟩
    obtain ⟨⟨r, o1⟩, g1, g2⟩ := bind_eq_ok.1 h5
    simp only [ok.injEq, Prod.mk.injEq] at g2
    exact ⟨h, c, r, o1, h1, h2, h3, h4, g1, g2.2.symm⟩
  · rintro ⟨h, c, rem', o1, h1, h2, h3, h4, h5, rfl⟩
    refine ⟨h, c, rem', h1, h2, h3, h4, ?_⟩
    rw [h5]
    rfl

example : taggedExplicit .der 2 (parseDer Tests.D0) [0xa2, 0x03, 0x02, 0x01, 0x05, 0xaa] =
    .ok ([0xaa], .mk ⟨.contextSpecific, true, 2, .definite 3, some [0xa2]⟩
      (.tagged .contextSpecific 2
        (.mk ⟨.universal, false, 2, .definite 1, some [2]⟩ (.integer [5])))) := rfl

/-! ## C40 -/

section
variable {E O : Type} [ParseErr E]

/-- C40 in full: the closure of `parse_*_tagged_implicit_g` is run only for non-universal elements
with tag number `tag`; that is, otherwise the answer is an error that does not depend on it. -/
def C40Statement : Prop :=
  ∀ (E O : Type) [ParseErr E] (R : Rules) (tag : Nat) (f : Bytes → Header → Nat → IRes E O)
    (i rem c : Bytes) (h : Header), FramedBy R i rem h c → (h.cls = .universal ∨ h.tag ≠ tag) →
    ∃ e, taggedImplicitG R tag f i = .err e

/-- C40 is false: the class is not checked; the universal INTEGER `02 01 05` is accepted as an
IMPLICIT element with tag 2. -/
theorem C40_universal_counterexample : ¬ C40Statement := by
  intro h
  obtain ⟨e, he⟩ := h BerError Nat .ber 2 (fun c _ _ => .ok ([], c.length)) [0x02, 0x01, 0x05] []
    [0x05] ⟨.universal, false, 2, .definite 1, some [2]⟩ ((frame_iff (E := BerError)).1 rfl)
    (.inl rfl)
  have : taggedImplicitG (E := BerError) .ber 2 (fun c _ _ => .ok ([], c.length))
    [0x02, 0x01, 0x05] = .ok ([], 1) := rfl
  rw [this] at he
  simp at he

/-- C40, what holds: the tag number is checked, the closure gets exactly the contents octets, the
header and the maximal depth.  Missing: the class. -/
theorem C40_implicit_partial (R : Rules) (tag : Nat) (f : Bytes → Header → Nat → IRes E O)
    (i rem c : Bytes) (h : Header) (hF : FramedBy R i rem h c) :
    taggedImplicitG R tag f i =
      if h.tag ≠ tag then .err (.error (ParseErr.ofBer (.unexpectedTag (some tag) h.tag)))
      else (f c h 50 >>? fun r => .ok (rem, r.2)) := by
  unfold taggedImplicitG
  rw [C38_container R _ i rem c h hF]
  by_cases h2 : h.tag = tag
  · simp [h2, Header.assertTag, maxRecursion]
  · simp [h2, Header.assertTag, liftResE]

example := C40_implicit_partial (E := BerError) .ber 2 (fun c _ d => .ok ([], (c, d))) [0x82, 0x01, 0x05, 9] [9] _ _
  ((frame_iff (E := BerError)).1 rfl)

end

/-! ## C41 -/

/-- C41: `parse_ber_optional`: a success of `f` is wrapped (same remainder, same header), a failure
of any kind (`Incomplete` and `Failure` included) is `Optional(None)` with nothing consumed. -/
theorem C41_optional (f : Bytes → IRes BerError BerObject) (i : Bytes) :
    (∀ rem o, f i = .ok (rem, o) →
      parseOptional f i = .ok (rem, .mk o.header (.optionalSome o))) ∧
    (∀ e, f i = .err e → ∃ h, parseOptional f i = .ok (i, .mk h .optionalNone)) := by
  constructor
  · intro rem o h; unfold parseOptional; rw [h]
  · intro e h; unfold parseOptional; rw [h]; exact ⟨_, rfl⟩

/-- C41: `parse_ber_optional` never answers an error. -/
theorem C41_optional_never_err (f : Bytes → IRes BerError BerObject) (i : Bytes) (e : NomErr BerError) :
    parseOptional f i ≠ .err e := by
  unfold parseOptional
  split <;> simp

/-- The parser may refuse. -/
example : parseBerWithTag Tests.D0 2 [0x01, 0x01, 0xff] = .err (.error (.unexpectedTag (some 2) 1)) ∧
    parseOptional (parseBerWithTag Tests.D0 2) [0x01, 0x01, 0xff] =
      .ok ([0x01, 0x01, 0xff], .fromObj .optionalNone) := ⟨rfl, rfl⟩

/-- C41: `parse_ber_explicit_optional` (and the DER version, which is the same function) never
answers an error; if it consumes something, it was an explicitly tagged element on whose contents
`f` succeeded. -/
theorem C41_explicit_optional (tag : Nat) (f : Bytes → IRes BerError BerObject) (i : Bytes)
    (hf : ∀ c, (f c).Returns) :
    (∃ rem h c rem' o, FramedBy .ber i rem h c ∧ h.cls ≠ .universal ∧ h.tag = tag ∧
      h.constructed = true ∧ f c = .ok (rem', o) ∧
      parseExplicitOptional tag f i =
        .ok (rem, .mk h (.optionalSome (.mk h (.tagged h.cls tag o))))) ∨
    ((∀ rem h c rem' o, FramedBy .ber i rem h c → h.cls ≠ .universal → h.tag = tag →
      h.constructed = true → f c ≠ .ok (rem', o)) ∧
      ∃ h, parseExplicitOptional tag f i = .ok (i, .mk h .optionalNone)) := by
  unfold parseExplicitOptional
  generalize hg : (taggedExplicitG (O := BerObject) Rules.ber tag fun content hdr =>
      f content >>? fun r => .ok (r.1, BerObject.mk hdr (.tagged hdr.cls hdr.tag r.2))) = g
  have hok : ∀ rem o, g i = .ok (rem, o) ↔ ∃ h c rem' o1, FramedBy .ber i rem h c ∧
      h.cls ≠ .universal ∧ h.tag = tag ∧ h.constructed = true ∧ f c = .ok (rem', o1) ∧
      o = .mk h (.tagged h.cls tag o1) := by
    intro rem o
    rw [← hg, C39_explicit_ok]
    constructor
    · rintro ⟨h, c, rem', h1, h2, h3, h4, h5⟩
      obtain ⟨⟨r, o1⟩, g1, g2⟩ := bind_eq_ok.1 h5
      simp only [ok.injEq, Prod.mk.injEq] at g2
      exact ⟨h, c, r, o1, h1, h2, h3, h4, g1, by rw [← g2.2, h3]⟩
    · rintro ⟨h, c, rem', o1, h1, h2, h3, h4, h5, rfl⟩
      refine ⟨h, c, rem', h1, h2, h3, h4, ?_⟩
      rw [h5]
      simp [h3]
  have hret : (g i).Returns := by
    rw [← hg]
    exact C04_tagged_explicit_g_total .ber tag _ i fun c h =>
      returns_bind (hf c) fun _ _ => by simp
  cases hgi : g i with
  | ok r =>
    left
    obtain ⟨rem, o⟩ := r
    obtain ⟨h, c, rem', o1, h1, h2, h3, h4, h5, rfl⟩ := (hok rem o).1 hgi
    exact ⟨rem, h, c, rem', o1, h1, h2, h3, h4, h5, by rw [(C41_optional g i).1 _ _ hgi]; rfl⟩
  | err e =>
    right
    refine ⟨fun rem h c rem' o h1 h2 h3 h4 h5 => ?_, (C41_optional g i).2 e hgi⟩
    have := (hok rem _).2 ⟨h, c, rem', o, h1, h2, h3, h4, h5, rfl⟩
    rw [hgi] at this
    simp at this
  | panic => rw [hgi] at hret; exact absurd hret id
  | diverge => rw [hgi] at hret; exact absurd hret id

example : parseExplicitOptional 1 (parseBer Tests.D0) [0x02, 0x01, 0x05] =
    .ok ([0x02, 0x01, 0x05], .fromObj .optionalNone) := rfl
example : (parseExplicitOptional 2 (parseBer Tests.D0) [0xa2, 0x03, 0x02, 0x01, 0x05, 0xbb]).map
    (·.1) = .ok [0xbb] := rfl

/-! ## C42 -/

/-- C42 in full: a typed parser accepts only elements of class universal. -/
def C42Statement : Prop :=
  ∀ (D : Deps) (tag : Nat) (i rem : Bytes) (o : BerObject),
    (parseBerWithTag D tag i = .ok (rem, o) ∨ parseDerWithTag D tag i = .ok (rem, o)) →
    o.header.cls = .universal ∧ o.header.tag = tag

/-- C42 is false: `82 01 05` (context-specific, number 2) is accepted by `parse_ber_integer` and
`parse_der_integer`. -/
theorem C42_class_counterexample : ¬ C42Statement := by
  intro h
  have := (h Tests.D0 2 [0x82, 0x01, 0x05] [] _ (.inl rfl)).1
  exact absurd this (by decide)

/-- C42, what holds: the tag number is the one of the type (and the content has the variant of the
universal tag with that number).  Missing: the class. -/
theorem C42_tag_number_partial (D : Deps) (tag : Nat) (i rem : Bytes) (o : BerObject)
    (h : parseBerWithTag D tag i = .ok (rem, o) ∨ parseDerWithTag D tag i = .ok (rem, o)) :
    o.header.tag = tag ∧
      Agrees (Header.new .universal o.header.constructed tag o.header.length) o.content := by
  rcases h with h | h
  · obtain ⟨e, c, _, _, h1, _, h2⟩ := parseBerWithTag_iff.1 h
    exact ⟨h1, by rw [← h1]; exact denotes_agrees h2⟩
  · obtain ⟨hb, c, _, _, _, h1, _, _, h2⟩ := parseDerWithTag_iff.1 h
    exact ⟨h1, by rw [← h1]; exact denotes_agrees h2⟩

example := C42_tag_number_partial Tests.D0 2 [0x82, 0x01, 0x05, 9] [9] _ (.inl rfl)

/-- C42: on elements that `parse_ber` gives a type to, the typed parser agrees with `parse_ber` (up to the size
limit and the raw tag of unknown elements). -/
theorem C42_universal (D : Deps) (i rem : Bytes) (o : BerObject)
    (h : parseBer D i = .ok (rem, o))
    (hk : ∀ a, o.content ≠ .unknown a)
    (hmax : ∀ L, o.header.length = .definite L → L ≤ 4294967295) :
    parseBerWithTag D o.header.tag i = .ok (rem, o) := by
  obtain ⟨e, c, h1, h2, h3⟩ := parseBerRecursive_iff.1 h
  refine parseBerWithTag_iff.2 ⟨e, c, h1, h2, rfl, hmax, ?_⟩
  change Denotes D 50 _ _ _ at h3
  generalize o.content = x at h3 hk
  generalize o.header = hd at h3
  cases h3 with
  | leaf _ _ _ _ hL =>
    refine .leaf _ _ _ _ ?_
    cases x with
    | unknown a => exact absurd rfl (hk a)
    | _ =>
      simp only [Leaf, Header.new] at hL ⊢
      try simp only [true_and]
      try exact hL.2
      try exact hL
  | sequence _ _ items => exact .sequence _ _ items rfl (by assumption) (by assumption) (by assumption) (by assumption)
  | set _ _ items => exact .set _ _ items rfl (by assumption) (by assumption) (by assumption) (by assumption)

example := C42_universal Tests.D0 [0x30, 0x03, 0x01, 0x01, 0xff, 9] [9] _ rfl (fun a h => by cases h)
  (fun L h => by cases h; decide)

/-! ## C59 -/

/-- A user error type that remembers where nom errors were raised. -/
inductive Tests.UserErr where
  | parse (e : BerError)
  | nom (rest : Bytes) (k : ErrorKind)

instance : ParseErr Tests.UserErr where
  ofBer := .parse
  ofKind := .nom

section
variable {E F : Type} [ParseErr E] [ParseErr F]

/-- Two results agree up to the relation `Q` on errors: same value, same `Incomplete`, errors of the
same kind related by `Q`. -/
inductive Spec.Sim (Q : E → F → Prop) {α : Type} : Outcome (NomErr E) α → Outcome (NomErr F) α → Prop
  | ok (a : α) : Sim Q (.ok a) (.ok a)
  | incomplete (n : Needed) : Sim Q (.err (.incomplete n)) (.err (.incomplete n))
  | error (e : E) (e' : F) : Q e e' → Sim Q (.err (.error e)) (.err (.error e'))
  | failure (e : E) (e' : F) : Q e e' → Sim Q (.err (.failure e)) (.err (.failure e'))
  | panic : Sim Q .panic .panic
  | diverge : Sim Q .diverge .diverge

/-- `Q` relates the two translations of library errors and of nom error kinds. -/
structure Spec.ErrRel (Q : E → F → Prop) : Prop where
  ofBer : ∀ e, Q (ParseErr.ofBer e) (ParseErr.ofBer e)
  ofKind : ∀ i k, Q (ParseErr.ofKind i k) (ParseErr.ofKind i k)

variable {Q : E → F → Prop}

omit [ParseErr E] [ParseErr F] in
theorem sim_bind {α β : Type} {x : Outcome (NomErr E) α} {y : Outcome (NomErr F) α}
    {f : α → Outcome (NomErr E) β} {g : α → Outcome (NomErr F) β} (hx : Sim Q x y)
    (hf : ∀ a, Sim Q (f a) (g a)) : Sim Q (x >>? f) (y >>? g) := by
  cases hx with
  | ok a => exact hf a
  | incomplete n => exact .incomplete n
  | error e e' h => exact .error e e' h
  | failure e e' h => exact .failure e e' h
  | panic => exact .panic
  | diverge => exact .diverge

theorem sim_convertErr {α : Type} (hQ : ErrRel Q) (x : Outcome (NomErr BerError) α) :
    Sim Q (convertErr x) (convertErr x) := by
  unfold convertErr
  cases x with
  | ok a => exact .ok a
  | err e => cases e with
    | incomplete n => exact .incomplete n
    | error e => exact .error _ _ (hQ.ofBer e)
    | failure e => exact .failure _ _ (hQ.ofBer e)
  | panic => exact .panic
  | diverge => exact .diverge

theorem sim_liftResE {α : Type} (hQ : ErrRel Q) (x : Res α) :
    Sim Q (liftResE x) (liftResE x) := by
  unfold liftResE
  cases x with
  | ok a => exact .ok a
  | err e => exact .error _ _ (hQ.ofBer e)
  | panic => exact .panic
  | diverge => exact .diverge

theorem sim_frame (hQ : ErrRel Q) (R : Rules) (i : Bytes) :
    Sim Q (frame R i : IRes E (Header × Bytes)) (frame R i) := by
  have ht : ∀ n i, Sim Q (takeComplete n i : IRes E Bytes) (takeComplete n i) := by
    intro n i
    unfold takeComplete
    split
    · exact .error _ _ (hQ.ofKind _ _)
    · exact .ok _
  unfold frame
  cases R <;> dsimp only <;> refine sim_bind (sim_convertErr hQ _) fun a => sim_bind ?_ fun _ => .ok _
  · split
    · exact ht _ _
    · exact sim_convertErr hQ _
  · split
    · exact ht _ _
    · exact .error _ _ (hQ.ofBer _)

/-- What the user error type keeps of the library's: the position in addition. -/
def Tests.userQ (e : BerError) : Tests.UserErr → Prop
  | .parse e' => e = e'
  | .nom _ k => e = .nomError k

theorem Tests.userQ_rel : ErrRel Tests.userQ := ⟨fun _ => rfl, fun _ _ => rfl⟩

theorem Tests.sim_user {α : Type} (x : Outcome (NomErr BerError) α) :
    Sim Tests.userQ x (x.mapErr (NomErr.map .parse)) := by
  cases x with
  | ok a => exact .ok a
  | err e => cases e with
    | incomplete n => exact .incomplete n
    | error e => exact .error _ _ rfl
    | failure e => exact .failure _ _ rfl
  | panic => exact .panic
  | diverge => exact .diverge

/-- C59: containers.  Two runs with different error types and closures that agree up to `Q` agree
up to `Q`: same values and remainders, same `Incomplete` answers, errors at the same places. -/
theorem C59_container {O : Type} (hQ : ErrRel Q) (R : Rules) (f : Bytes → Header → IRes E O)
    (g : Bytes → Header → IRes F O) (hfg : ∀ c h, Sim Q (f c h) (g c h)) (i : Bytes) :
    Sim Q (container R f i) (container R g i) :=
  sim_bind (sim_frame hQ R i) fun _ => sim_bind (hfg _ _) fun _ => .ok _

example (i : Bytes) := C59_container Tests.userQ_rel .ber (fun c _ => parseBer Tests.D0 c)
  (fun c _ => (parseBer Tests.D0 c).mapErr (NomErr.map .parse)) (fun _ _ => Tests.sim_user _) i

/-- C59: `*_defined_g`. -/
theorem C59_defined {O : Type} (hQ : ErrRel Q) (R : Rules) (tag : Nat)
    (f : Bytes → Header → IRes E O) (g : Bytes → Header → IRes F O)
    (hfg : ∀ c h, Sim Q (f c h) (g c h)) (i : Bytes) :
    Sim Q (definedG R tag f i) (definedG R tag g i) :=
  C59_container hQ R _ _ (fun c h => sim_bind (sim_liftResE hQ _) fun _ => hfg c h) i

example (i : Bytes) := C59_defined Tests.userQ_rel .der 16 (fun c _ => parseDer Tests.D0 c)
  (fun c _ => (parseDer Tests.D0 c).mapErr (NomErr.map .parse)) (fun _ _ => Tests.sim_user _) i

theorem sim_many0 {T : Type} (hQ : ErrRel Q) {f : Bytes → IRes E T} {g : Bytes → IRes F T}
    (hfg : ∀ c, Sim Q (f c) (g c)) (fuel : Nat) (i : Bytes) :
    Sim Q (many0 (complete (cut f)) fuel i) (many0 (complete (cut g)) fuel i) := by
  have hcc : ∀ i, Sim Q (complete (cut f) i) (complete (cut g) i) := by
    intro i
    unfold complete cut
    cases hf : f i <;> cases hg : g i <;> have h := hfg i <;> rw [hf, hg] at h <;> cases h
    · exact .ok _
    · exact .error _ _ (hQ.ofKind _ _)
    · exact .failure _ _ (by assumption)
    · exact .failure _ _ (by assumption)
    · exact .panic
    · exact .diverge
  induction fuel generalizing i with
  | zero => exact .diverge
  | succ fuel ih =>
    unfold many0
    have h := hcc i
    generalize complete (cut f) i = x at h
    generalize complete (cut g) i = y at h
    cases h with
    | ok a =>
      dsimp only
      split
      · exact .error _ _ (hQ.ofKind _ _)
      · exact sim_bind (ih _) fun _ => .ok _
    | incomplete n => exact .incomplete n
    | error e e' h => exact .ok _
    | failure e e' h => exact .failure e e' h
    | panic => exact .panic
    | diverge => exact .diverge

/-- C59: `*_sequence_of_v`, `*_set_of_v`. -/
theorem C59_of_v {T : Type} (hQ : ErrRel Q) (R : Rules) (tag : Nat)
    (f : Bytes → IRes E T) (g : Bytes → IRes F T) (hfg : ∀ c, Sim Q (f c) (g c)) (i : Bytes) :
    Sim Q (ofV R tag f i) (ofV R tag g i) := by
  refine C59_defined hQ R tag _ _ (fun c _ => ?_) i
  refine sim_bind (sim_many0 hQ hfg _ _) fun r => ?_
  split
  · exact .ok _
  · exact .error _ _ (hQ.ofKind _ _)

example (i : Bytes) := C59_of_v Tests.userQ_rel .ber 17 (parseBer Tests.D0)
  (fun c => (parseBer Tests.D0 c).mapErr (NomErr.map .parse)) (fun _ => Tests.sim_user _) i

/-- C59: `*_tagged_explicit_g`. -/
theorem C59_tagged_explicit {O : Type} (hQ : ErrRel Q) (R : Rules) (tag : Nat)
    (f : Bytes → Header → IRes E O) (g : Bytes → Header → IRes F O)
    (hfg : ∀ c h, Sim Q (f c h) (g c h)) (i : Bytes) :
    Sim Q (taggedExplicitG R tag f i) (taggedExplicitG R tag g i) := by
  refine C59_container hQ R _ _ (fun c h => ?_) i
  split
  · exact .error _ _ (hQ.ofBer _)
  · exact sim_bind (sim_liftResE hQ _) fun _ => sim_bind (sim_liftResE hQ _) fun _ => hfg c h

example (i : Bytes) := C59_tagged_explicit Tests.userQ_rel .ber 2 (fun c _ => parseBer Tests.D0 c)
  (fun c _ => (parseBer Tests.D0 c).mapErr (NomErr.map .parse)) (fun _ _ => Tests.sim_user _) i

/-- C59: `*_tagged_implicit_g`. -/
theorem C59_tagged_implicit {O : Type} (hQ : ErrRel Q) (R : Rules) (tag : Nat)
    (f : Bytes → Header → Nat → IRes E O) (g : Bytes → Header → Nat → IRes F O)
    (hfg : ∀ c h d, Sim Q (f c h d) (g c h d)) (i : Bytes) :
    Sim Q (taggedImplicitG R tag f i) (taggedImplicitG R tag g i) :=
  C59_container hQ R _ _ (fun c h => sim_bind (sim_liftResE hQ _) fun _ => hfg c h _) i

example (i : Bytes) := C59_tagged_implicit Tests.userQ_rel .ber 2 (fun c h d => parseBerContent Tests.D0 4 c h d)
  (fun c h d => (parseBerContent Tests.D0 4 c h d).mapErr (NomErr.map .parse)) (fun _ _ _ => Tests.sim_user _) i

omit [ParseErr E] [ParseErr F] in
/-- C59: what agreement means for the caller: the same `Ok` and the same `Incomplete` answers. -/
theorem C59_same_answers {α : Type} (x : Outcome (NomErr E) α) (y : Outcome (NomErr F) α)
    (h : Sim Q x y) :
    (∀ a, x = .ok a ↔ y = .ok a) ∧
    (∀ n, x = .err (.incomplete n) ↔ y = .err (.incomplete n)) ∧
    ((∃ e, x = .err (.error e)) ↔ (∃ e, y = .err (.error e))) ∧
    ((∃ e, x = .err (.failure e)) ↔ (∃ e, y = .err (.failure e))) := by
  cases h <;> simp

example (i : Bytes) := C59_same_answers _ _ (Tests.sim_user (parseBer Tests.D0 i))

/-- C59: errors go through `From<BerError>` and `from_error_kind`: when `φ` commutes with these two,
the run with the second error type is the first run with its errors mapped by `φ`. -/
theorem C59_errors_mapped {T : Type} (φ : E → F)
    (h1 : ∀ e, φ (ParseErr.ofBer e) = ParseErr.ofBer e)
    (h2 : ∀ i k, φ (ParseErr.ofKind i k) = ParseErr.ofKind i k) (R : Rules) (tag : Nat)
    (f : Bytes → IRes E T) (i : Bytes) :
    ofV R tag (fun j => (f j).mapErr (NomErr.map φ)) i =
      (ofV R tag f i).mapErr (NomErr.map φ) := by
  have hs : ∀ {α : Type} (x : Outcome (NomErr E) α),
      Sim (fun e e' => φ e = e') x (x.mapErr (NomErr.map φ)) := by
    intro α x
    cases x with
    | ok a => exact .ok a
    | err e => cases e with
      | incomplete n => exact .incomplete n
      | error e => exact .error _ _ rfl
      | failure e => exact .failure _ _ rfl
    | panic => exact .panic
    | diverge => exact .diverge
  have h := C59_of_v (Q := fun e e' => φ e = e') ⟨h1, h2⟩ R tag f
    (fun j => (f j).mapErr (NomErr.map φ)) (fun c => hs (f c)) i
  generalize ofV R tag f i = x at h ⊢
  generalize ofV R tag (fun j => (f j).mapErr (NomErr.map φ)) i = y at h ⊢
  cases h <;> simp_all [NomErr.map]

/-- The user error type without the positions. -/
example (f : Bytes → IRes Tests.UserErr Nat) := C59_errors_mapped (F := BerError)
  (fun | .parse e => e | .nom _ k => .nomError k) (fun _ => rfl) (fun _ _ => rfl) .ber 16 f [0x30, 0x04, 0x02, 0x01, 0x05, 0x02]

end

example : ErrRel (E := BerError) (F := Tests.UserErr) fun _ _ => True := ⟨fun _ => trivial, fun _ _ => trivial⟩
example : ofV (E := Tests.UserErr) .ber 16 (fun j => (parseBerWithTag Tests.D0 2 j).mapErr
    (NomErr.map .parse)) [0x30, 0x04, 0x02, 0x01, 0x05, 0x02] = .err (.error (.nom [0x02] .eof)) := rfl

end Verif
