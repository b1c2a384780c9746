import Verif.TargetProg
import Verif.Props.Targets
import Verif.Props.Lang
/-!
# Property C138: programs on targets with other machine words
-/
namespace Verif
open Outcome Spec
set_option linter.unusedSectionVars false

/-! ## The copy with parameters is the same as the original -/

section
variable {E O : Type} [ParseErr E]

theorem tFrame_eq (R : Rules) (i : Bytes) :
    tFrame (E := E) headerFromBer headerFromDer R i = frame R i := by
  cases R
  · simp only [tFrame, frame, tGetObjectContent_eq]
    refine congrArg _ (funext fun r => ?_)
    cases r.2.length <;> rfl
  · simp only [tFrame, frame]
    refine congrArg _ (funext fun r => ?_)
    cases r.2.length <;> rfl

theorem tContainer_eq (R : Rules) (f : Bytes → Header → IRes E O) :
    tContainer headerFromBer headerFromDer R f = container R f := by
  funext i; simp only [tContainer, container, tFrame_eq]

theorem tDefinedG_eq (R : Rules) (tag : Nat) (f : Bytes → Header → IRes E O) :
    tDefinedG headerFromBer headerFromDer R tag f = definedG R tag f := by
  simp only [tDefinedG, definedG, tContainer_eq]

theorem tExplicitG_eq (R : Rules) (tag : Nat) (f : Bytes → Header → IRes E O) :
    tTaggedExplicitG headerFromBer headerFromDer R tag f = taggedExplicitG R tag f := by
  simp only [tTaggedExplicitG, taggedExplicitG, tContainer_eq]

theorem tImplicitG_eq (R : Rules) (tag : Nat) (f : Bytes → Header → Nat → IRes E O) :
    tTaggedImplicitG headerFromBer headerFromDer R tag f = taggedImplicitG R tag f := by
  simp only [tTaggedImplicitG, taggedImplicitG, tContainer_eq]

theorem tOfV_eq (R : Rules) (tag : Nat) (f : Bytes → IRes E O) :
    tOfV headerFromBer headerFromDer R tag f = ofV R tag f := by
  simp only [tOfV, ofV, tDefinedG_eq]

end

theorem prim_runT_eq (D : Deps) {α : Type} (p : Prim α) (i : Bytes) :
    p.runT headerFromBer headerFromDer D i = p.run D i := by
  cases p with
  | any R d =>
    cases R
    · simp only [Prim.runT, Prim.run, tParseBerRecursive, tAnyFromBer_eq, tObjectFromAny_eq, parseBerRecursive,
        parseBerAnyR]
    · simp only [Prim.runT, Prim.run, tParseDerRecursive, tDerBody_eq, parseDerRecursive]
      refine congrArg _ (funext fun r => ?_)
      cases r.2.length <;> rfl
  | typed R t =>
    cases R
    · simp only [Prim.runT, Prim.run, parseTyped, tParseBerWithTag, tReadElementContentAs_eq, parseBerWithTag]
    · simp only [Prim.runT, Prim.run, parseTyped, tParseDerWithTag, tDerReadElementContentAs_eq, parseDerWithTag]
  | uint R width =>
    cases R
    · simp only [Prim.runT, Prim.run, tParseBerUint, tAnyFromBer_eq, parseBerUint]
    · rfl
  | int R width =>
    cases R
    · simp only [Prim.runT, Prim.run, tParseBerInt, tAnyFromBer_eq, parseBerInt]
    · rfl
  | slice R t => simp only [Prim.runT, Prim.run, tParseSlice, tContainer_eq, parseSlice]
  | rawAny => simp only [Prim.runT, Prim.run, tAnyFromBer_eq, parseBerAny]
  | header R => cases R <;> rfl
  | content R t h d =>
    cases R
    · simp only [Prim.runT, Prim.run, parseContentOf, parseBerContent, tReadElementContentAs_eq]
    · simp only [Prim.runT, Prim.run, parseContentOf, parseDerContent, tDerReadElementContentAs_eq]
  | element h => simp only [Prim.runT, Prim.run, tDerBody_eq, derReadElementContent]

theorem prog_runT_eq {E : Type} [ParseErr E] (D : Deps) {α : Type} (p : Prog E α) :
    p.runT headerFromBer headerFromDer D = p.run D := by
  induction p with
  | value x => rfl
  | bind p f ihp ihf => funext i; simp only [Prog.runT, Prog.run, ihp, ihf]
  | prim p => funext i; simp only [Prog.runT, Prog.run, prim_runT_eq]
  | container R f ih => simp only [Prog.runT, Prog.run, tContainer_eq, ih]
  | defined R tag f ih => simp only [Prog.runT, Prog.run, tDefinedG_eq, ih]
  | explicit R tag f ih => simp only [Prog.runT, Prog.run, tExplicitG_eq, ih]
  | implicit R tag f ih => simp only [Prog.runT, Prog.run, tImplicitG_eq, ih]
  | several R tag p ih => simp only [Prog.runT, Prog.run, tOfV_eq, ih]
  | within b p ih => funext i; simp only [Prog.runT, Prog.run, ih]
  | attempt p ih => simp only [Prog.runT, Prog.run, ih]
  | opt p ih => simp only [Prog.runT, Prog.run, ih]
  | orElse p q ihp ihq => simp only [Prog.runT, Prog.run, ihp, ihq]
  | many p ih => funext i; simp only [Prog.runT, Prog.run, ih]
  | complete p ih => simp only [Prog.runT, Prog.run, ih]
  | cut p ih => simp only [Prog.runT, Prog.run, ih]
  | allConsuming p ih => simp only [Prog.runT, Prog.run, ih]
  | eof => rfl

/-- C138: with 64 bits or more, the meaning of every program is that of the other properties. -/
theorem C138_word64 (w : Nat) (hw : 64 ≤ w) {E : Type} [ParseErr E] (D : Deps) {α : Type} (p : Prog E α)
    (i : Bytes) : p.runOn w D i = p.run D i := by
  rw [Prog.runOn, headerFromBerOn64 hw, headerFromDerOn64 hw, prog_runT_eq]

/-! ## How close two answers are -/

/-- What can be said about the errors of two targets: nothing; or that they are of the same kind
(`Incomplete`, `Error`, `Failure`) unless the second refuses where the first asks for more; or that they
are of the same kind. -/
inductive Spec.Grade where
  | loose | soft | firm
deriving DecidableEq, Repr

/-- Two errors of the given grade. -/
inductive Spec.Near {E : Type} : Grade → NomErr E → NomErr E → Prop
  | incomplete (g : Grade) (n : Needed) : Near g (.incomplete n) (.incomplete n)
  | error (g : Grade) (e e' : E) : Near g (.error e) (.error e')
  | failure (g : Grade) (e e' : E) : Near g (.failure e) (.failure e')
  | refused (n : Needed) (e : E) : Near .soft (.incomplete n) (.error e)
  | any (e e' : NomErr E) : Near .loose e e'

/-- Two answers: the same, or errors of the given grade. -/
def Spec.Close {E α : Type} (g : Grade) (x y : Outcome (NomErr E) α) : Prop :=
  y = x ∨ ∃ e e', x = .err e ∧ y = .err e' ∧ Near g e e'

section
variable {E : Type} {α β : Type} {g : Grade}

theorem close_refl (x : Outcome (NomErr E) α) : Close g x x := .inl rfl

theorem close_bind {x y : Outcome (NomErr E) α} {f f' : α → Outcome (NomErr E) β} (h : Close g x y)
    (hf : ∀ a, x = .ok a → Close g (f a) (f' a)) : Close g (x >>? f) (y >>? f') := by
  rcases h with rfl | ⟨e, e', rfl, rfl, h⟩
  · cases y with
    | ok a => exact hf a rfl
    | err e => exact .inl rfl
    | panic => exact .inl rfl
    | diverge => exact .inl rfl
  · exact .inr ⟨e, e', rfl, rfl, h⟩

theorem near_loose {e e' : NomErr E} : Near .loose e e' := .any e e'

theorem close_loose {x y : Outcome (NomErr E) α} (h : Close g x y) : Close .loose x y := by
  rcases h with rfl | ⟨e, e', rfl, rfl, h⟩
  · exact .inl rfl
  · exact .inr ⟨e, e', rfl, rfl, near_loose⟩

theorem close_firm {x y : Outcome (NomErr E) α} (h : Close .firm x y) : Close g x y := by
  rcases h with rfl | ⟨e, e', rfl, rfl, h⟩
  · exact .inl rfl
  · refine .inr ⟨e, e', rfl, rfl, ?_⟩
    cases h with
    | incomplete g n => exact .incomplete _ n
    | error g e e' => exact .error _ e e'
    | failure g e e' => exact .failure _ e e'

theorem close_soft (hg : g ≠ .firm) {x y : Outcome (NomErr E) α} (h : Close .soft x y) : Close g x y := by
  cases g with
  | loose => exact close_loose h
  | soft => exact h
  | firm => exact absurd rfl hg

theorem close_error (e e' : E) : Close (α := α) g (.err (.error e)) (.err (.error e')) :=
  .inr ⟨_, _, rfl, rfl, .error _ _ _⟩

theorem close_ok {x y : Outcome (NomErr E) α} (h : Close g x y) (a : α) : y = .ok a ↔ x = .ok a := by
  rcases h with rfl | ⟨e, e', rfl, rfl, -⟩ <;> simp

theorem close_returns {x y : Outcome (NomErr E) α} (h : Close g x y) : y.Returns ↔ x.Returns := by
  rcases h with rfl | ⟨e, e', rfl, rfl, -⟩ <;> simp

theorem close_convert [ParseErr E] {x y : Outcome (NomErr BerError) α} (h : Close g x y) :
    Close (E := E) g (convertErr x) (convertErr y) := by
  rcases h with rfl | ⟨e, e', rfl, rfl, h⟩
  · exact .inl rfl
  · refine .inr ⟨_, _, rfl, rfl, ?_⟩
    cases h with
    | incomplete g n => exact .incomplete _ n
    | error g e e' => exact .error _ _ _
    | failure g e e' => exact .failure _ _ _
    | refused n e => exact .refused n _
    | any e e' => exact near_loose

theorem close_narrower {w L : Nat} {x y : Outcome (NomErr BerError) α} (h : Narrower w L x y) :
    Close .soft x y := by
  rcases h with rfl | ⟨e, rfl, he, rfl⟩
  · exact .inl rfl
  · refine .inr ⟨e, _, rfl, rfl, ?_⟩
    rcases he with rfl | ⟨n, hn, rfl | rfl⟩
    · exact .error _ _ _
    · exact .refused _ _
    · exact .error _ _ _

end

/-! ## Frames -/

section
variable {E O : Type} [ParseErr E] {w L : Nat}

/-- A header read on both targets. -/
theorem close_header {β : Type} {g : Grade} {x : IRes BerError Header}
    {f f' : Bytes × Header → Outcome (NomErr E) β}
    (hs : ∀ r, x = .ok r → Close g (f r) (f' r))
    (hl : ∀ r n, x = .ok r → r.2.length = .definite n → 2 ^ w ≤ n → ∃ e, f r = .err (.error e)) :
    Close g (convertErr x >>? f) (convertErr (x >>? narrow w) >>? f') := by
  cases x with
  | ok r =>
    simp only [ok_bind, narrow]
    cases hr : r.2.length with
    | definite n =>
      simp only
      split
      · rename_i hn
        obtain ⟨e, h⟩ := hl r n rfl hr hn
        exact .inr ⟨_, _, h, rfl, .error _ _ _⟩
      · exact hs r rfl
    | indefinite => exact hs r rfl
  | err e => exact .inl rfl
  | panic => exact .inl rfl
  | diverge => exact .inl rfl

theorem frame_close (hL : L < 2 ^ w) (R : Rules) (i : Bytes) (hi : i.length ≤ L) :
    Close (E := E) (if R = .ber then .soft else .firm) (frame R i)
      (tFrame (headerFromBerOn w) (headerFromDerOn w) R i) := by
  cases R
  · refine close_header ?_ ?_
    · rintro ⟨i2, h2⟩ e
      have := headerFromBer_pos e
      refine close_bind ?_ fun _ _ => close_refl _
      simp only
      cases h2.length with
      | definite n => exact close_refl _
      | indefinite => exact close_convert (close_narrower (getContent_narrower hL _ _ _ (by omega)))
    · rintro ⟨i2, h2⟩ n e hn h3
      have := headerFromBer_pos e
      simp only at hn
      simp only [hn, takeComplete]
      rw [if_pos (by omega)]
      exact ⟨_, rfl⟩
  · refine close_header ?_ ?_
    · rintro ⟨i2, h2⟩ e
      exact close_refl _
    · rintro ⟨i2, h2⟩ n e hn h3
      have := headerFromDer_pos e
      simp only at hn
      simp only [hn, takeComplete]
      rw [if_pos (by omega)]
      exact ⟨_, rfl⟩

theorem frame_content_le {R : Rules} {i rem c : Bytes} {h : Header}
    (e : frame (E := E) R i = .ok (rem, (h, c))) : c.length ≤ i.length := by
  have key : ∀ (x : IRes BerError Header) (F : Header → Bytes → IRes E Bytes),
      (∀ h i2, x = .ok (i2, h) → i2.length ≤ i.length) →
      (∀ h i2 r c, F h i2 = .ok (r, c) → c.length ≤ i2.length) →
      (convertErr x >>? fun r => F r.2 r.1 >>? fun s => .ok (s.1, (r.2, s.2))) = .ok (rem, (h, c)) →
      c.length ≤ i.length := by
    intro x F h1 h2 h3
    obtain ⟨⟨i2, hh⟩, e1, e2⟩ := bind_eq_ok.1 h3
    obtain ⟨⟨r, c'⟩, e3, e4⟩ := bind_eq_ok.1 e2
    cases e4
    have e1' := mapErr_eq_ok.1 e1
    exact Nat.le_trans (h2 _ _ _ _ e3) (h1 _ _ e1')
  have htake : ∀ n (j r c : Bytes), takeComplete (E := E) n j = .ok (r, c) → c.length ≤ j.length := by
    intro n j r c h
    simp only [takeComplete] at h
    split at h
    · cases h
    · cases h; simp only [List.length_take]; omega
  cases R
  · refine key (headerFromBer i) (fun h i2 => match h.length with
       | .definite len => takeComplete len i2
       | .indefinite => convertErr (getObjectContent maxRecursion h i2)) ?_ ?_ e
    · intro h i2 e; have := headerFromBer_pos e; omega
    · intro h i2 r c e
      cases hl : h.length with
      | definite n => simp only [hl] at e; exact htake _ _ _ _ e
      | indefinite =>
        simp only [hl] at e
        obtain ⟨pre, b', rfl, -, hc⟩ := getObjectContent_ok (mapErr_eq_ok.1 e)
        have : c.length ≤ pre.length := by
          rw [hc, contentOf]; split <;> simp
        simp only [List.length_append]; omega
  · refine key (headerFromDer i) (fun h i2 => match h.length with
       | .definite len => takeComplete len i2
       | .indefinite => .err (.error (ParseErr.ofBer (.derConstraintFailed .indefiniteLength)))) ?_ ?_ e
    · intro h i2 e; have := headerFromDer_pos e; omega
    · intro h i2 r c e
      cases hl : h.length with
      | definite n => simp only [hl] at e; exact htake _ _ _ _ e
      | indefinite => simp only [hl] at e; cases e

/-- The grade that a container of the given rules allows. -/
def Spec.Grade.Fits (g : Grade) (R : Rules) : Prop := R = .ber → g ≠ .firm

theorem close_fits {α : Type} {g : Grade} {R : Rules} (hg : g.Fits R) {x y : Outcome (NomErr E) α}
    (h : Close (if R = .ber then .soft else .firm) x y) : Close g x y := by
  cases R
  · exact close_soft (hg rfl) h
  · exact close_firm h

theorem container_close {g : Grade} (hL : L < 2 ^ w) {R : Rules} (hg : g.Fits R)
    {f f' : Bytes → Header → IRes E O} {i : Bytes} (hi : i.length ≤ L)
    (hf : ∀ c h, c.length ≤ L → Close g (f c h) (f' c h)) :
    Close g (container R f i) (tContainer (headerFromBerOn w) (headerFromDerOn w) R f' i) := by
  refine close_bind (close_fits hg (frame_close hL R i hi)) ?_
  rintro ⟨rem, h, c⟩ e
  have := frame_content_le e
  exact close_bind (hf c h (by omega)) fun _ _ => close_refl _

end

/-! ## Functions without a closure -/

theorem typed_close {w : Nat} (hw : 32 ≤ w) (D : Deps) (R : Rules) (t : Nat) (i : Bytes)
    (hi : i.length < 2 ^ w) :
    Close .soft (parseTyped D R t i)
      ((Prim.typed R t).runT (headerFromBerOn w) (headerFromDerOn w) D i) := by
  obtain ⟨h1, h2⟩ := C135_with_tag w hw D t i hi
  cases R
  · rcases h1 with h | ⟨⟨a, h⟩, h'⟩
    · exact close_narrower h
    · exact .inr ⟨_, _, h, h', .error _ _ _⟩
  · rcases h2 with h | ⟨⟨a, h⟩, h'⟩
    · exact close_narrower h
    · exact .inr ⟨_, _, h, h', .error _ _ _⟩

theorem anyDer_narrower {w L : Nat} (hL : L < 2 ^ w) (i : Bytes) (hi : i.length ≤ L) :
    Narrower w L (anyFromDer i) (tAnyFromDer (headerFromDerOn w) i) := by
  refine narrower_header ?_ ?_
  · rintro ⟨i2, h2⟩ e
    exact .inl rfl
  · rintro ⟨i2, h2⟩ n e hn h3
    have := headerFromDer_pos e
    right
    simp only at hn
    refine ⟨_, ?_, asks_of_take (l := n) (len := i2.length) (by omega) hL h3⟩
    simp only [hn, Length.definite?, liftRes, mapErr_ok, ok_bind, takeStreaming]
    rw [if_pos (by omega)]
    rfl

/-- Not the functions that return a header without its contents. -/
def Prim.Whole : {α : Type} → Prim α → Prop
  | _, .header _ => False
  | _, _ => True

theorem prim_close {w : Nat} (hw : 32 ≤ w) (D : Deps) {α : Type} (p : Prim α) (hp : p.Whole) (i : Bytes)
    (hi : i.length < 2 ^ w) :
    Close .soft (p.run D i) (p.runT (headerFromBerOn w) (headerFromDerOn w) D i) := by
  cases p with
  | any R d =>
    obtain ⟨h1, h2⟩ := C135_answers w hw D d i hi
    cases R
    · exact close_narrower h1
    · exact close_narrower h2
  | typed R t => exact typed_close hw D R t i hi
  | uint R width =>
    cases R
    · exact close_bind (close_narrower (any_narrower hi i (Nat.le_refl _))) fun _ _ => close_refl _
    · exact close_bind (close_narrower (anyDer_narrower hi i (Nat.le_refl _))) fun _ _ => close_refl _
  | int R width =>
    cases R
    · exact close_bind (close_narrower (any_narrower hi i (Nat.le_refl _))) fun _ _ => close_refl _
    · exact close_bind (close_narrower (anyDer_narrower hi i (Nat.le_refl _))) fun _ _ => close_refl _
  | slice R t =>
    simp only [Prim.run, parseSlice, Prim.runT, tParseSlice]
    exact container_close (E := BerError) (g := .soft) (R := R) hi (fun _ => by decide) (Nat.le_refl _)
      fun _ _ _ => close_refl _
  | rawAny => exact close_narrower (any_narrower hi i (Nat.le_refl _))
  | header R => exact hp.elim
  | content R t h d =>
    cases R
    · exact close_narrower (readAs_narrower hi D i t _ _ d (Nat.le_refl _))
    · exact close_narrower (derReadAs_narrower hi D i t _ _ d (Nat.le_refl _))
  | element h => exact close_narrower (derBody_narrower hi D i h _ (Nat.le_refl _))

/-! ## Combinators of nom -/

section
variable {E α β : Type} [ParseErr E] {g : Grade} {L : Nat}

theorem attempting_close {p q : Bytes → IRes E α} {i : Bytes} (h : Close .loose (p i) (q i)) :
    attempting p i = attempting q i := by
  simp only [attempting]
  rcases h with h | ⟨e, e', h1, h2, -⟩
  · rw [h]
  · rw [h1, h2]

theorem optionally_close {p q : Bytes → IRes E α} {i : Bytes} (h : Close .firm (p i) (q i)) :
    Close .firm (optionally p i) (optionally q i) := by
  simp only [optionally]
  rcases h with h | ⟨e, e', h1, h2, h⟩
  · rw [h]; exact close_refl _
  · rw [h1, h2]
    cases h with
    | incomplete g n => exact close_refl _
    | error g e e' => exact close_refl _
    | failure g e e' => exact .inr ⟨_, _, rfl, rfl, .failure _ _ _⟩

theorem either_close {p q p' q' : Bytes → IRes E α} {i : Bytes} (h : Close .firm (p i) (p' i))
    (hq : Close g (q i) (q' i)) : Close g (either p q i) (either p' q' i) := by
  simp only [either]
  rcases h with h | ⟨e, e', h1, h2, h⟩
  · rw [h]
    cases p i with
    | err e =>
      cases e with
      | error e => exact hq
      | _ => exact close_refl _
    | _ => exact close_refl _
  · rw [h1, h2]
    cases h with
    | incomplete g n => exact close_refl _
    | error g e e' => exact hq
    | failure g e e' => exact .inr ⟨_, _, rfl, rfl, .failure _ _ _⟩

/-- A first branch that may be refused where it asked for more, if the second refuses then as well. -/
theorem either_close_soft {p q p' q' : Bytes → IRes E α} {i : Bytes} (hg : g ≠ .firm)
    (h : Close .soft (p i) (p' i)) (hq : Close g (q i) (q' i))
    (hx : ∀ n e, p i = .err (.incomplete n) → p' i = .err (.error e) → ∃ e', q' i = .err (.error e')) :
    Close g (either p q i) (either p' q' i) := by
  simp only [either]
  rcases h with h | ⟨e, e', h1, h2, h⟩
  · rw [h]
    cases p i with
    | err e =>
      cases e with
      | error e => exact hq
      | _ => exact close_refl _
    | _ => exact close_refl _
  · rw [h1, h2]
    cases h with
    | incomplete g n => exact close_refl _
    | error g e e' => exact hq
    | failure g e e' => exact .inr ⟨_, _, rfl, rfl, .failure _ _ _⟩
    | refused n e =>
      obtain ⟨e', h3⟩ := hx n e h1 h2
      simp only [h3]
      exact close_soft hg (.inr ⟨_, _, rfl, rfl, .refused n e'⟩)

theorem complete_close {p q : Bytes → IRes E α} {i : Bytes} (h : Close .soft (p i) (q i)) :
    Close .firm (complete p i) (complete q i) := by
  simp only [complete]
  rcases h with h | ⟨e, e', h1, h2, h⟩
  · rw [h]; exact close_refl _
  · rw [h1, h2]
    cases h with
    | incomplete g n => exact close_refl _
    | error g e e' => exact close_error _ _
    | failure g e e' => exact .inr ⟨_, _, rfl, rfl, .failure _ _ _⟩
    | refused n e => exact close_error _ _

theorem complete_close_loose {p q : Bytes → IRes E α} {i : Bytes} (h : Close .loose (p i) (q i)) :
    Close .loose (complete p i) (complete q i) := by
  simp only [complete]
  rcases h with h | ⟨e, e', h1, h2, h⟩
  · rw [h]; exact close_refl _
  · rw [h1, h2]
    cases e <;> cases e' <;> exact .inr ⟨_, _, rfl, rfl, near_loose⟩

theorem cut_close {p q : Bytes → IRes E α} {i : Bytes} (h : Close .firm (p i) (q i)) :
    Close .firm (cut p i) (cut q i) := by
  simp only [cut]
  rcases h with h | ⟨e, e', h1, h2, h⟩
  · rw [h]; exact close_refl _
  · rw [h1, h2]
    cases h with
    | incomplete g n => exact close_refl _
    | error g e e' => exact .inr ⟨_, _, rfl, rfl, .failure _ _ _⟩
    | failure g e e' => exact .inr ⟨_, _, rfl, rfl, .failure _ _ _⟩

theorem cut_close_loose {p q : Bytes → IRes E α} {i : Bytes} (h : Close .loose (p i) (q i)) :
    Close .loose (cut p i) (cut q i) := by
  simp only [cut]
  rcases h with h | ⟨e, e', h1, h2, h⟩
  · rw [h]; exact close_refl _
  · rw [h1, h2]
    cases e <;> cases e' <;> exact .inr ⟨_, _, rfl, rfl, near_loose⟩

theorem allConsuming_close {p q : Bytes → IRes E α} {i : Bytes} (h : Close g (p i) (q i)) :
    Close g (allConsuming p i) (allConsuming q i) := close_bind h fun _ _ => close_refl _

theorem many0_close {p q : Bytes → IRes E α} (hp : ∀ i rem a, p i = .ok (rem, a) → rem <:+ i)
    (h : ∀ i, i.length ≤ L → Close .firm (p i) (q i)) : ∀ (fuel : Nat) (i : Bytes), i.length ≤ L →
      Close .firm (many0 p fuel i) (many0 q fuel i)
  | 0, _, _ => close_refl _
  | fuel + 1, i, hi => by
    have hi' := h i hi
    unfold many0
    rcases hi' with hi' | ⟨e, e', h1, h2, h3⟩
    · rw [hi']
      cases hx : p i with
      | ok r =>
        have := (hp i r.1 r.2 hx).length_le
        simp only
        split
        · exact close_refl _
        · exact close_bind (many0_close hp h fuel r.1 (by omega)) fun _ _ => close_refl _
      | err e => cases e <;> exact close_refl _
      | panic => exact close_refl _
      | diverge => exact close_refl _
    · rw [h1, h2]
      cases h3 with
      | incomplete g n => exact close_refl _
      | error g e e' => exact close_refl _
      | failure g e e' => exact .inr ⟨_, _, rfl, rfl, .failure _ _ _⟩

theorem ofSubparser_close {p q : Bytes → IRes E α} (hp : ∀ i rem a, p i = .ok (rem, a) → rem <:+ i)
    (h : ∀ i, i.length ≤ L → Close .firm (p i) (q i)) (i : Bytes) (hi : i.length ≤ L) :
    Close .firm (ofSubparser p i) (ofSubparser q i) := by
  refine allConsuming_close (many0_close ?_ ?_ _ i hi)
  · intro i rem a e
    exact hp i rem a (cut_ok.1 (complete_ok.1 e))
  · intro i hi
    exact complete_close (close_firm (cut_close (h i hi)))

/-- The answers of `many0` that `all_consuming` turns into errors. -/
def Unfinished (x : IRes E (List α)) : Prop := (∃ e, x = .err e) ∨ ∃ b r l, x = .ok (b :: r, l)

theorem many0_unfinished {p q : Bytes → IRes E α} (hp : ∀ i rem a, p i = .ok (rem, a) → rem <:+ i)
    (h : ∀ i, i.length ≤ L → Close .loose (p i) (q i)) (h0 : q [] = p []) :
    ∀ (fuel : Nat) (i : Bytes), i.length ≤ L →
      many0 (complete (cut q)) fuel i = many0 (complete (cut p)) fuel i ∨
      Unfinished (many0 (complete (cut p)) fuel i) ∧ Unfinished (many0 (complete (cut q)) fuel i)
  | 0, _, _ => .inl rfl
  | fuel + 1, i, hi => by
    have hc : complete (cut q) i = complete (cut p) i ∨ i ≠ [] ∧
        ∃ e e', complete (cut p) i = .err e ∧ complete (cut q) i = .err e' := by
      rcases h i hi with hi' | ⟨e, e', h1, h2, -⟩
      · left; simp only [complete, cut, hi']
      · cases i with
        | nil => left; simp only [complete, cut, h0]
        | cons b i =>
          right
          refine ⟨by simp, ?_⟩
          simp only [complete, cut, h1, h2]
          cases e <;> cases e' <;> exact ⟨_, _, rfl, rfl⟩
    rcases hc with hc | ⟨hne, e, e', h1, h2⟩
    · unfold many0
      rw [hc]
      cases hx : complete (cut p) i with
      | ok r =>
        have := (hp i r.1 r.2 (cut_ok.1 (complete_ok.1 hx))).length_le
        simp only
        split
        · exact .inl rfl
        · rcases many0_unfinished hp h h0 fuel r.1 (by omega) with hr | ⟨u1, u2⟩
          · rw [hr]; exact .inl rfl
          · right
            have key : ∀ x : IRes E (List α), Unfinished x →
                Unfinished (x >>? fun s => .ok (s.1, r.2 :: s.2)) := by
              rintro x (⟨e, rfl⟩ | ⟨b, r', l, rfl⟩)
              · exact .inl ⟨e, rfl⟩
              · exact .inr ⟨b, r', _, rfl⟩
            exact ⟨key _ u1, key _ u2⟩
      | err e => cases e <;> exact .inl rfl
      | panic => exact .inl rfl
      | diverge => exact .inl rfl
    · right
      obtain ⟨b, j, rfl⟩ := List.exists_cons_of_ne_nil hne
      have key : ∀ (f : Bytes → IRes E α) e, f (b :: j) = .err e →
          Unfinished (many0 f (fuel + 1) (b :: j)) := by
        intro f e he
        unfold many0
        rw [he]
        cases e with
        | error e => exact .inr ⟨b, j, [], rfl⟩
        | _ => exact .inl ⟨_, rfl⟩
      exact ⟨key _ _ h1, key _ _ h2⟩

theorem ofSubparser_close_loose {p q : Bytes → IRes E α}
    (hp : ∀ i rem a, p i = .ok (rem, a) → rem <:+ i)
    (h : ∀ i, i.length ≤ L → Close .loose (p i) (q i)) (h0 : q [] = p []) (i : Bytes) (hi : i.length ≤ L) :
    Close .loose (ofSubparser p i) (ofSubparser q i) := by
  simp only [ofSubparser, allConsuming]
  rcases many0_unfinished hp h h0 (i.length + 1) i hi with hr | ⟨u1, u2⟩
  · rw [hr]; exact close_refl _
  · have key : ∀ x : IRes E (List α), Unfinished x → ∃ e, (x >>? fun r => match r.1 with
        | [] => .ok r
        | _ :: _ => .err (.error (ParseErr.ofKind r.1 .eof))) = .err e := by
      rintro x (⟨e, rfl⟩ | ⟨b, r', l, rfl⟩)
      · exact ⟨e, rfl⟩
      · exact ⟨_, rfl⟩
    obtain ⟨e, h1⟩ := key _ u1
    obtain ⟨e', h2⟩ := key _ u2
    exact .inr ⟨e, e', h1, h2, near_loose⟩

end

/-! ## Programs -/

section
variable {E : Type} [ParseErr E]

/-- The program does not run a part of it on octets other than its input. -/
def Prog.Direct (D : Deps) : {α : Type} → Prog E α → Prop
  | _, .bind p f => p.Direct D ∧ ∀ a, (∃ rem, p.run D [] = .ok (rem, a)) → (f a).Direct D
  | _, .within _ _ => False
  | _, .attempt p => p.Direct D
  | _, .opt p => p.Direct D
  | _, .orElse p q => p.Direct D ∧ q.Direct D
  | _, .many p => p.Direct D
  | _, .complete p => p.Direct D
  | _, .cut p => p.Direct D
  | _, .allConsuming p => p.Direct D
  | _, _ => True

/-- Programs whose answers on a target with `w` bits are those with 64 bits, up to errors of grade `g`:
`opt`, `alt` and `many0`, which look at the kind of an error, are used on parsers for which it does not
depend on the target; for `alt`, it is enough that the second branch refuses whenever the first refuses
for the target; the elements of `*_of_v` are of this kind or do not run on other octets; no header is
read without its contents; the octets of `within` fit into the memory. -/
def Prog.At (w : Nat) (D : Deps) : {α : Type} → Grade → Prog E α → Prop
  | _, _, .value _ => True
  | _, g, .bind p f => p.At w D g ∧
      ∀ a, (∃ i rem, i.length < 2 ^ w ∧ p.run D i = .ok (rem, a)) → (f a).At w D g
  | _, g, .prim p => p.Whole ∧ g ≠ .firm
  | _, g, .container R f => g.Fits R ∧ ∀ h, (f h).At w D g
  | _, g, .defined R _ f => g.Fits R ∧ ∀ h, (f h).At w D g
  | _, g, .explicit R _ f => g.Fits R ∧ ∀ h, (f h).At w D g
  | _, g, .implicit R _ f => g.Fits R ∧ ∀ h d, (f h d).At w D g
  | _, g, .several R _ p => g.Fits R ∧ (p.At w D .firm ∨ g = .loose ∧ p.At w D .loose ∧ p.Direct D)
  | _, g, .within b p => b.length < 2 ^ w ∧ p.At w D g
  | _, _, .attempt p => p.At w D .loose
  | _, _, .opt p => p.At w D .firm
  | _, g, .orElse p q => q.At w D g ∧ (p.At w D .firm ∨ g ≠ .firm ∧ p.At w D .soft ∧
      ∀ i n e, i.length < 2 ^ w → p.run D i = .err (.incomplete n) → p.runOn w D i = .err (.error e) →
        ∃ e', q.runOn w D i = .err (.error e'))
  | _, _, .many p => p.At w D .firm
  | _, g, .complete p => p.At w D (if g = .loose then .loose else .soft)
  | _, g, .cut p => p.At w D (if g = .loose then .loose else .firm)
  | _, g, .allConsuming p => p.At w D g
  | _, _, .eof => True

theorem object_nil (hb : Bytes → IRes BerError Header) (D : Deps) : ∀ (d : Nat) (h : Header),
    tObjectFromAny hb D d ⟨h, []⟩ = objectFromAny D d ⟨h, []⟩
  | 0, _ => rfl
  | d + 1, h => by
    simp only [tObjectFromAny, objectFromAny]
    split
    · rfl
    · congr 1
      have hc : ∀ conv : Any → Res BerObject, tCollectItems hb conv 1 [] = .ok [] := fun _ => rfl
      have hc' : ∀ conv : Any → Res BerObject, collectItems conv 1 [] = .ok [] := fun _ => rfl
      simp only [tUniversalContent, universalContent]
      cases uKind h.tag <;> simp [hc, hc']

theorem getContent_nil (w d : Nat) (h : Header) :
    tGetObjectContent (headerFromBerOn w) d h [] = getObjectContent d h [] := by
  have : tSkipContent (headerFromBerOn w) d h [] = skipContent d h [] := by
    cases d with
    | zero => rfl
    | succ d =>
      simp only [tSkipContent, skipContent]
      cases h.length <;> rfl
  simp only [tGetObjectContent, getObjectContent, this]

theorem readAs_nil (w : Nat) (D : Deps) (t : Nat) (l : Length) (k : Bool) (d : Nat) :
    tReadElementContentAs (headerFromBerOn w) D [] t l k d = berReadElementContentAs D [] t l k d := by
  have go : (tGetObjectContent (headerFromBerOn w) d (Header.new .universal k t l) [] >>? fun r =>
        liftRes (tObjectFromAny (headerFromBerOn w) D d ⟨Header.new .universal k t l, r.2⟩) >>? fun o =>
          .ok (r.1, o.content)) =
      (getObjectContent d (Header.new .universal k t l) [] >>? fun r =>
        liftRes (objectFromAny D d ⟨Header.new .universal k t l, r.2⟩) >>? fun o =>
          .ok (r.1, o.content)) := by
    rw [getContent_nil]
    cases hx : getObjectContent d (Header.new .universal k t l) [] with
    | ok r =>
      obtain ⟨pre, b', he, -, hc⟩ := getObjectContent_ok (rem := r.1) (c := r.2) hx
      have hp : pre = [] := by
        cases pre with
        | nil => rfl
        | cons => simp at he
      have : r.2 = [] := by
        rw [hc, hp, contentOf]; split <;> rfl
      simp only [ok_bind, this, object_nil]
    | err e => rfl
    | panic => rfl
    | diverge => rfl
  simp only [tReadElementContentAs, berReadElementContentAs, go]
  cases l <;> rfl

theorem derReadAs_nil (w : Nat) (D : Deps) (t : Nat) (l : Length) (k : Bool) (d : Nat) :
    tDerReadElementContentAs (headerFromBerOn w) D [] t l k d = derReadElementContentAs D [] t l k d := by
  simp only [tDerReadElementContentAs, derReadElementContentAs, readAs_nil]

theorem container_nil {O : Type} (w : Nat) (R : Rules) (f f' : Bytes → Header → IRes E O) :
    tContainer (headerFromBerOn w) (headerFromDerOn w) R f' [] = container R f [] := by
  cases R <;> rfl

theorem prim_nil (w : Nat) (D : Deps) {α : Type} (p : Prim α) :
    p.runT (headerFromBerOn w) (headerFromDerOn w) D [] = p.run D [] := by
  have hber' : headerFromBer [] = .err (.incomplete (.size 1)) := rfl
  have hder' : headerFromDer [] = .err (.incomplete (.size 1)) := rfl
  have hber : headerFromBerOn w [] = .err (.incomplete (.size 1)) := rfl
  have hder : headerFromDerOn w [] = .err (.incomplete (.size 1)) := rfl
  cases p with
  | any R d => cases R <;> simp only [Prim.runT, Prim.run, tParseBerRecursive, tParseDerRecursive, tAnyFromBer, hber,
      hder, parseBerRecursive, parseBerAnyR, parseDerRecursive, anyFromBer, hber', hder', err_bind]
  | typed R t => cases R <;> simp only [Prim.runT, Prim.run, parseTyped, tParseBerWithTag, tParseDerWithTag, hber, hder,
      parseBerWithTag, parseDerWithTag, hber', hder', err_bind]
  | uint R width => cases R <;> simp only [Prim.runT, Prim.run, tParseBerUint, tParseDerUint, tAnyFromBer, tAnyFromDer,
      hber, hder, parseBerUint, parseDerUint, anyFromBer, anyFromDer, hber', hder', err_bind]
  | int R width => cases R <;> simp only [Prim.runT, Prim.run, tParseBerInt, tParseDerInt, tAnyFromBer, tAnyFromDer,
      hber, hder, parseBerInt, parseDerInt, anyFromBer, anyFromDer, hber', hder', err_bind]
  | slice R t =>
    simp only [Prim.run, parseSlice, Prim.runT, tParseSlice]
    exact container_nil (E := BerError) w R _ _
  | rawAny => simp only [Prim.runT, Prim.run, tAnyFromBer, hber, parseBerAny, anyFromBer, hber', err_bind]
  | header R => cases R <;> rfl
  | content R t h d =>
    cases R
    · exact readAs_nil w D t _ _ d
    · exact derReadAs_nil w D t _ _ d
  | element h =>
    simp only [Prim.runT, Prim.run, tDerReadElementContentRecursive, derReadElementContent,
      derReadElementContentRecursive, derReadAs_nil, tDerUnknown, derUnknown, getContent_nil]
    split
    · rfl
    · split <;> simp_all

theorem many0_nil {α : Type} {p q : Bytes → IRes E α} (hp : ∀ i rem a, p i = .ok (rem, a) → rem <:+ i)
    (h : q [] = p []) : many0 q 1 [] = many0 p 1 [] := by
  unfold many0
  rw [h]
  cases hx : p [] with
  | ok r =>
    have := (hp [] r.1 r.2 hx).length_le
    simp only [List.length_nil, Nat.le_zero] at this
    simp [this]
  | err e => cases e <;> rfl
  | panic => rfl
  | diverge => rfl

/-- On the empty input there is no length to be refused. -/
theorem prog_nil (w : Nat) (D : Deps) {α : Type} (p : Prog E α) (hp : p.Direct D) :
    p.runT (headerFromBerOn w) (headerFromDerOn w) D [] = p.run D [] := by
  induction p with
  | value x => rfl
  | bind p f ihp ihf =>
    simp only [Prog.runT, Prog.run, ihp hp.1]
    cases hx : p.run D [] with
    | ok r =>
      have := (prog_suffix D p [] r.1 r.2 hx).length_le
      have h0 : r.1 = [] := by simpa using this
      simp only [ok_bind, h0]
      exact ihf r.2 (hp.2 _ ⟨r.1, hx⟩)
    | err e => rfl
    | panic => rfl
    | diverge => rfl
  | prim p => simp only [Prog.runT, Prog.run, prim_nil]
  | container R f ih => exact container_nil w R _ _
  | defined R tag f ih =>
    simp only [Prog.run, definedG, Prog.runT, tDefinedG]
    exact container_nil w R _ _
  | explicit R tag f ih =>
    simp only [Prog.run, taggedExplicitG, Prog.runT, tTaggedExplicitG]
    exact container_nil w R _ _
  | implicit R tag f ih =>
    simp only [Prog.run, taggedImplicitG, Prog.runT, tTaggedImplicitG]
    exact container_nil w R _ _
  | several R tag p ih =>
    simp only [Prog.run, ofV, definedG, Prog.runT, tOfV, tDefinedG]
    exact container_nil w R _ _
  | within b p ih => exact hp.elim
  | attempt p ih => simp only [Prog.runT, Prog.run, attempting, ih hp]
  | opt p ih => simp only [Prog.runT, Prog.run, optionally, ih hp]
  | orElse p q ihp ihq => simp only [Prog.runT, Prog.run, either, ihp hp.1, ihq hp.2]
  | many p ih => exact many0_nil (fun i rem a => prog_suffix D p i rem a) (ih hp)
  | complete p ih => simp only [Prog.runT, Prog.run, Verif.complete, ih hp]
  | cut p ih => simp only [Prog.runT, Prog.run, Verif.cut, ih hp]
  | allConsuming p ih => simp only [Prog.runT, Prog.run, Verif.allConsuming, ih hp]
  | eof => rfl

theorem prog_close {w : Nat} (hw : 32 ≤ w) (D : Deps) {α : Type} (p : Prog E α) :
    ∀ {g : Grade} (_ : p.At w D g) (i : Bytes) (_ : i.length < 2 ^ w),
      Close g (p.run D i) (p.runT (headerFromBerOn w) (headerFromDerOn w) D i) := by
  have hL : 2 ^ w - 1 < 2 ^ w := by
    have : 0 < 2 ^ w := Nat.pow_pos (by omega)
    omega
  have hle : ∀ n, n ≤ 2 ^ w - 1 ↔ n < 2 ^ w := by intro n; omega
  induction p with
  | value x => exact fun _ i _ => close_refl _
  | bind p f ihp ihf =>
    intro g hp i hi
    refine close_bind (ihp hp.1 i hi) ?_
    rintro ⟨rem, a⟩ e
    have := (prog_suffix D p i rem a e).length_le
    exact ihf a (hp.2 a ⟨i, rem, hi, e⟩) rem (by omega)
  | prim p => exact fun hp i hi => close_convert (close_soft hp.2 (prim_close hw D p hp.1 i hi))
  | container R f ih =>
    exact fun hp i hi => container_close hL hp.1 ((hle _).2 hi) fun c h hc => ih h (hp.2 h) c ((hle _).1 hc)
  | defined R tag f ih =>
    intro g hp i hi
    simp only [Prog.run, definedG, Prog.runT, tDefinedG]
    exact container_close hL hp.1 ((hle _).2 hi) fun c h hc =>
      close_bind (close_refl _) fun _ _ => ih h (hp.2 h) c ((hle _).1 hc)
  | explicit R tag f ih =>
    intro g hp i hi
    simp only [Prog.run, taggedExplicitG, Prog.runT, tTaggedExplicitG]
    refine container_close hL hp.1 ((hle _).2 hi) fun c h hc => ?_
    split
    · exact close_refl _
    · exact close_bind (close_refl _) fun _ _ => close_bind (close_refl _) fun _ _ =>
        ih h (hp.2 h) c ((hle _).1 hc)
  | implicit R tag f ih =>
    intro g hp i hi
    simp only [Prog.run, taggedImplicitG, Prog.runT, tTaggedImplicitG]
    exact container_close hL hp.1 ((hle _).2 hi) fun c h hc =>
      close_bind (close_refl _) fun _ _ => ih h _ (hp.2 h _) c ((hle _).1 hc)
  | several R tag p ih =>
    intro g hp i hi
    simp only [Prog.run, ofV, definedG, Prog.runT, tOfV, tDefinedG]
    refine container_close hL hp.1 ((hle _).2 hi) fun c h hc => close_bind (close_refl _) fun _ _ => ?_
    have hs : ∀ i rem a, p.run D i = .ok (rem, a) → rem <:+ i := fun i rem a => prog_suffix D p i rem a
    rcases hp.2 with h1 | ⟨rfl, h1, h2⟩
    · exact close_firm (ofSubparser_close hs (fun i hi => ih h1 i ((hle _).1 hi)) c hc)
    · exact ofSubparser_close_loose hs (fun i hi => ih h1 i ((hle _).1 hi)) (prog_nil w D p h2) c hc
  | within b p ih => exact fun hp i hi => close_bind (ih hp.2 b hp.1) fun _ _ => close_refl _
  | attempt p ih => exact fun hp i hi => .inl (attempting_close (ih hp i hi)).symm
  | opt p ih => exact fun hp i hi => close_firm (optionally_close (ih hp i hi))
  | orElse p q ihp ihq =>
    intro g hp i hi
    rcases hp.2 with h1 | ⟨h1, h2, h3⟩
    · exact either_close (ihp h1 i hi) (ihq hp.1 i hi)
    · exact either_close_soft h1 (ihp h2 i hi) (ihq hp.1 i hi) fun n e e1 e2 => h3 i n e hi e1 e2
  | many p ih =>
    exact fun hp i hi => close_firm (many0_close (L := 2 ^ w - 1) (fun i rem a => prog_suffix D p i rem a)
      (fun i hi => ih hp i ((hle _).1 hi)) _ i ((hle _).2 hi))
  | complete p ih =>
    intro g hp i hi
    cases g with
    | loose => exact complete_close_loose (ih hp i hi)
    | soft => exact close_firm (complete_close (ih hp i hi))
    | firm => exact complete_close (ih hp i hi)
  | cut p ih =>
    intro g hp i hi
    cases g with
    | loose => exact cut_close_loose (ih hp i hi)
    | soft => exact close_firm (cut_close (ih hp i hi))
    | firm => exact cut_close (ih hp i hi)
  | allConsuming p ih => exact fun hp i hi => allConsuming_close (ih hp i hi)
  | eof => exact fun _ i _ => close_refl _

/-- C138: on every input that fits into the memory of a target with `w ≥ 32` bits, a program of grade `g`
answers as on a target with 64 bits, up to errors of that grade. -/
theorem C138_answers (w : Nat) (hw : 32 ≤ w) (D : Deps) {α : Type} (p : Prog E α) (g : Grade)
    (hp : p.At w D g) (i : Bytes) (hi : i.length < 2 ^ w) : Close g (p.run D i) (p.runOn w D i) :=
  prog_close hw D p hp i hi

/-- C138: so it accepts the same inputs with the same value and remainder, and returns on the same
inputs. -/
theorem C138_accepts (w : Nat) (hw : 32 ≤ w) (D : Deps) {α : Type} (p : Prog E α) (g : Grade)
    (hp : p.At w D g) (i : Bytes) (hi : i.length < 2 ^ w) :
    (∀ rem a, p.runOn w D i = .ok (rem, a) ↔ p.run D i = .ok (rem, a)) ∧
    ((p.runOn w D i).Returns ↔ (p.run D i).Returns) :=
  ⟨fun _ _ => close_ok (C138_answers w hw D p g hp i hi) _, close_returns (C138_answers w hw D p g hp i hi)⟩

/-- C138: for a program of the highest grade the kind of the error, and the number of octets asked for,
are the same as well. -/
theorem C138_kind (w : Nat) (hw : 32 ≤ w) (D : Deps) {α : Type} (p : Prog E α) (hp : p.At w D .firm)
    (i : Bytes) (hi : i.length < 2 ^ w) :
    (∀ n, p.runOn w D i = .err (.incomplete n) ↔ p.run D i = .err (.incomplete n)) ∧
    ((∃ e, p.runOn w D i = .err (.error e)) ↔ ∃ e, p.run D i = .err (.error e)) ∧
    ((∃ e, p.runOn w D i = .err (.failure e)) ↔ ∃ e, p.run D i = .err (.failure e)) := by
  rcases C138_answers w hw D p .firm hp i hi with h | ⟨e, e', h1, h2, h⟩
  · simp [h]
  · rw [h1, h2]
    cases h <;> simp

end

/-! ## Composed parsers -/

/-- When the function for one type asks for more with 64 bits and refuses on the target, the functions
for all types refuse on the target. -/
theorem typed_refused_on {w : Nat} (D : Deps) (R : Rules) (t t' : Nat) (i : Bytes) (n : Needed) (e : BerError)
    (h1 : (Prim.typed R t).run D i = .err (.incomplete n))
    (h2 : (Prim.typed R t).runT (headerFromBerOn w) (headerFromDerOn w) D i = .err (.error e)) :
    ∃ e', (Prim.typed R t').runT (headerFromBerOn w) (headerFromDerOn w) D i = .err (.error e') := by
  have key : ∀ (x : IRes BerError Header) (F : Header → Bytes → IRes BerError BerObject)
      (F' : Header → Bytes → IRes BerError BerObject),
      (x >>? fun r => liftRes (r.2.assertTag t) >>? fun _ => F r.2 r.1) = .err (.incomplete n) →
      ((x >>? narrow w) >>? fun r => liftRes (r.2.assertTag t) >>? fun _ => F' r.2 r.1) = .err (.error e) →
      ∃ e', ((x >>? narrow w) >>? fun r => liftRes (r.2.assertTag t') >>? fun _ => F' r.2 r.1) =
        .err (.error e') := by
    intro x F F' h1 h2
    cases x with
    | ok r =>
      simp only [ok_bind] at h1 h2 ⊢
      cases hn : narrow w r with
      | ok r' =>
        have hr : r' = r := by
          simp only [narrow] at hn
          split at hn
          · split at hn
            · cases hn
            · cases hn; rfl
          · cases hn; rfl
        subst hr
        rw [hn] at h2
        simp only [ok_bind] at h2 ⊢
        by_cases ht : r'.2.tag = t'
        · by_cases ht2 : r'.2.tag = t
          · have : t' = t := by omega
            subst this
            exact ⟨e, h2⟩
          · simp [Header.assertTag, ht2, liftRes] at h1
        · exact ⟨.unexpectedTag (some t') r'.2.tag, by simp only [Header.assertTag, if_neg ht, liftRes, mapErr_err, err_bind]⟩
      | err e1 =>
        rw [hn] at h2
        simp only [err_bind, err.injEq] at h2 ⊢
        exact ⟨e, h2⟩
      | panic => rw [hn] at h2; cases h2
      | diverge => rw [hn] at h2; cases h2
    | err e1 =>
      simp only [err_bind] at h1 h2
      rw [h1] at h2; cases h2
    | panic => cases h1
    | diverge => cases h1
  cases R
  · exact key (headerFromBer i)
      (fun h i => berReadElementContentAs D i h.tag h.length h.constructed maxRecursion >>? fun s =>
        .ok (s.1, .mk h s.2))
      (fun h i => tReadElementContentAs (headerFromBerOn w) D i h.tag h.length h.constructed maxRecursion >>?
        fun s => .ok (s.1, .mk h s.2)) h1 h2
  · exact key (headerFromDer i)
      (fun h i => derReadElementContentAs D i h.tag h.length h.constructed maxRecursion >>? fun s =>
        .ok (s.1, .mk h s.2))
      (fun h i => tDerReadElementContentAs (headerFromBerOn w) D i h.tag h.length h.constructed maxRecursion >>?
        fun s => .ok (s.1, .mk h s.2)) h1 h2

theorem alt_refused_on {w : Nat} (D : Deps) (R : Rules) (t : Nat) (i : Bytes) (n : Needed) (e : BerError)
    (h1 : (Prim.typed R t).run D i = .err (.incomplete n))
    (h2 : (Prim.typed R t).runT (headerFromBerOn w) (headerFromDerOn w) D i = .err (.error e)) :
    ∀ (l : List Nat) (t' : Nat), ∃ e', (altProg R t' l).runOn w D i = .err (.error e')
  | [], t' => by
    obtain ⟨e', h⟩ := typed_refused_on D R t t' i n e h1 h2
    refine ⟨e', ?_⟩
    simp only [Prog.runOn, altProg, Prog.runT, h]
    rfl
  | t'' :: l, t' => by
    obtain ⟨e', h⟩ := typed_refused_on D R t t' i n e h1 h2
    obtain ⟨e2, h3⟩ := alt_refused_on D R t i n e h1 h2 l t''
    refine ⟨e2, ?_⟩
    simp only [Prog.runOn] at h3
    simp only [Prog.runOn, altProg, Prog.runT, either, h, convertErr, mapErr_err, NomErr.map]
    exact h3

/-- `nom::branch::alt` of functions for one type. -/
theorem alt_at (w : Nat) (D : Deps) (R : Rules) {g : Grade} (hg : g ≠ .firm) : ∀ (l : List Nat) (t : Nat),
    (altProg R t l).At w D g
  | [], _ => ⟨trivial, hg⟩
  | t' :: l, t => by
    refine ⟨alt_at w D R hg l t', .inr ⟨hg, ⟨trivial, by decide⟩, ?_⟩⟩
    intro i n e _ h1 h2
    simp only [Prog.runOn, Prog.runT, Prog.run, convertErr_id] at h1 h2
    exact alt_refused_on D R t i n e h1 h2 l t'

theorem alt_direct (D : Deps) (R : Rules) : ∀ (l : List Nat) (t : Nat), (altProg R t l).Direct D
  | [], _ => trivial
  | t' :: l, _ => ⟨trivial, alt_direct D R l t'⟩

mutual
theorem schema_direct (D : Deps) (R : Rules) : (s : Schema) → (s.prog R).Direct D
  | .any => trivial
  | .typed _ => trivial
  | .sequenceOf _ => ⟨trivial, fun _ _ => trivial⟩
  | .setOf _ => ⟨trivial, fun _ _ => trivial⟩
  | .sequence _ => ⟨trivial, fun _ _ => trivial⟩
  | .set _ => ⟨trivial, fun _ _ => trivial⟩
  | .explicit _ _ => trivial
  | .implicit _ _ => trivial
  | .optional s => ⟨schema_direct D R s, fun _ _ => trivial⟩
  | .explicitOptional _ _ => ⟨trivial, fun _ _ => trivial⟩
  | .choice tag tags => alt_direct D R tags tag
end

mutual
theorem schema_at (w : Nat) (D : Deps) (R : Rules) : (s : Schema) → (s.prog R).At w D .loose
  | .any => ⟨trivial, by decide⟩
  | .typed _ => ⟨trivial, by decide⟩
  | .sequenceOf s =>
    ⟨⟨fun _ => by decide, .inr ⟨rfl, schema_at w D R s, schema_direct D R s⟩⟩, fun _ _ => trivial⟩
  | .setOf s =>
    ⟨⟨fun _ => by decide, .inr ⟨rfl, schema_at w D R s, schema_direct D R s⟩⟩, fun _ _ => trivial⟩
  | .sequence l => ⟨⟨fun _ => by decide, fun _ => schemas_at w D R l⟩, fun _ _ => trivial⟩
  | .set l => ⟨⟨fun _ => by decide, fun _ => schemas_at w D R l⟩, fun _ _ => trivial⟩
  | .explicit _ s => ⟨fun _ => by decide, fun _ => ⟨schema_at w D R s, fun _ _ => trivial⟩⟩
  | .implicit _ _ => ⟨fun _ => by decide, fun _ _ => ⟨⟨trivial, by decide⟩, fun _ _ => trivial⟩⟩
  | .optional s => ⟨schema_at w D R s, fun _ _ => trivial⟩
  | .explicitOptional _ s =>
    ⟨⟨fun _ => by decide, fun _ => ⟨schema_at w D R s, fun _ _ => trivial⟩⟩, fun _ _ => trivial⟩
  | .choice tag tags => alt_at w D R (by decide) tags tag
theorem schemas_at (w : Nat) (D : Deps) (R : Rules) : (l : List Schema) → (Schema.progAll R l).At w D .loose
  | [] => trivial
  | s :: l => ⟨schema_at w D R s, fun _ _ => ⟨schemas_at w D R l, fun _ _ => trivial⟩⟩
end

/-- C138: every composed parser accepts the same inputs with the same object, and returns. -/
theorem C138_composed (w : Nat) (hw : 32 ≤ w) (D : Deps) (R : Rules) (s : Schema) (i : Bytes)
    (hi : i.length < 2 ^ w) :
    (∀ rem o, (s.prog R).runOn w D i = .ok (rem, o) ↔ s.run D R i = .ok (rem, o)) ∧
    ((s.prog R).runOn w D i).Returns := by
  have h := C138_accepts w hw D _ .loose (schema_at w D R s) i hi
  rw [run_prog] at h
  exact ⟨h.1, h.2.2 (C97_total D R s i)⟩

theorem attr_at (w : Nat) (D : Deps) : attrProg.At w D .soft :=
  ⟨nofun, fun _ => ⟨⟨⟨trivial, by decide⟩, fun _ _ => trivial⟩,
    fun _ _ => ⟨alt_at w D .ber (by decide) _ _, fun _ _ => trivial⟩⟩⟩

/-- C138: the hypotheses are met by the parser for names of the tests of the repository, with the highest
grade: `many0` is applied to `complete`. -/
theorem C138_name (w : Nat) (D : Deps) : nameProg.At w D .firm :=
  ⟨nofun, fun _ => ⟨nofun, fun _ => attr_at w D⟩⟩

/-! ## The conditions are needed -/

/-- C138: a header without its contents is accepted with 64 bits only. -/
theorem C138_header_differs (D : Deps) :
    (Prog.prim (.header .ber) : Prog BerError Header).run D [0x02, 0x85, 1, 0, 0, 0, 0, 5] =
      .ok ([5], ⟨.universal, false, 2, .definite 4294967296, some [0x02]⟩) ∧
    (Prog.prim (.header .ber) : Prog BerError Header).runOn 32 D [0x02, 0x85, 1, 0, 0, 0, 0, 5] =
      .err (.error .invalidLength) := by
  constructor
  · rfl
  · simp only [Prog.runOn, Prog.runT, Prim.runT, big_header]; rfl

/-- C138: `opt`, `alt` and `many0` on a function of the library accept with 32 bits what is unfinished
with 64. -/
theorem C138_kind_differs (D : Deps) :
    (Prog.opt (.prim (.any .ber 50)) : Prog BerError _).run D [0x02, 0x85, 1, 0, 0, 0, 0, 5] =
      .err (.incomplete (.size 4294967295)) ∧
    (Prog.opt (.prim (.any .ber 50)) : Prog BerError _).runOn 32 D [0x02, 0x85, 1, 0, 0, 0, 0, 5] =
      .ok ([0x02, 0x85, 1, 0, 0, 0, 0, 5], none) ∧
    (∀ q : Prog BerError BerObject,
      (Prog.orElse (.prim (.any .ber 50)) q).run D [0x02, 0x85, 1, 0, 0, 0, 0, 5] =
        .err (.incomplete (.size 4294967295)) ∧
      (Prog.orElse (.prim (.any .ber 50)) q).runOn 32 D [0x02, 0x85, 1, 0, 0, 0, 0, 5] =
        q.runOn 32 D [0x02, 0x85, 1, 0, 0, 0, 0, 5]) ∧
    (Prog.many (.prim (.any .ber 50)) : Prog BerError _).run D [0x02, 0x85, 1, 0, 0, 0, 0, 5] =
      .err (.incomplete (.size 4294967295)) ∧
    (Prog.many (.prim (.any .ber 50)) : Prog BerError _).runOn 32 D [0x02, 0x85, 1, 0, 0, 0, 0, 5] =
      .ok ([0x02, 0x85, 1, 0, 0, 0, 0, 5], []) := by
  have h1 : (Prog.prim (.any .ber 50) : Prog BerError BerObject).run D [0x02, 0x85, 1, 0, 0, 0, 0, 5] =
      .err (.incomplete (.size 4294967295)) := by
    simp only [Prog.run, Prim.run, big_ber, convertErr_id]
  have h2 : (Prog.prim (.any .ber 50) : Prog BerError BerObject).runT (headerFromBerOn 32)
      (headerFromDerOn 32) D [0x02, 0x85, 1, 0, 0, 0, 0, 5] = .err (.error .invalidLength) := by
    have := big_ber_on D
    simp only [parseBerOn] at this
    simp only [Prog.runT, Prim.runT, this, convertErr_id]
  refine ⟨?_, ?_, fun q => ⟨?_, ?_⟩, ?_, ?_⟩
  · simp only [Prog.run] at h1 ⊢; simp only [optionally, h1]
  · simp only [Prog.runOn, Prog.runT] at h2 ⊢; simp only [optionally, h2]
  · simp only [Prog.run] at h1 ⊢; simp only [either, h1]
  · simp only [Prog.runOn, Prog.runT] at h2 ⊢; simp only [either, h2]
  · simp only [Prog.run] at h1 ⊢
    show many0 _ (8 + 1) _ = _
    unfold many0
    simp only [h1]
  · simp only [Prog.runOn, Prog.runT] at h2 ⊢
    show many0 _ (8 + 1) _ = _
    unfold many0
    simp only [h2]

theorem big_typed (D : Deps) : parseDerWithTag D 2 [0x02, 0x85, 1, 0, 0, 0, 0] =
    .err (.incomplete (.size 4294967296)) := by
  have h : headerFromDer [0x02, 0x85, 1, 0, 0, 0, 0] =
      .ok ([], ⟨.universal, false, 2, .definite 4294967296, some [0x02]⟩) := rfl
  simp [parseDerWithTag, h, Header.assertTag, liftRes, derReadElementContentAs, Length.definite?, Needed.new]

theorem ofSubparser_unfinished {E α : Type} [ParseErr E] {p : Bytes → IRes E α} {b : UInt8} {r : Bytes}
    {n : Needed} (h : p (b :: r) = .err (.incomplete n)) :
    ofSubparser p (b :: r) = .err (.error (ParseErr.ofKind (b :: r) .eof)) := by
  simp [ofSubparser, allConsuming, many0, complete, cut, h]

theorem ofSubparser_end {E α : Type} [ParseErr E] {p : Bytes → IRes E α} {n : Needed}
    (h : p [] = .err (.incomplete n)) : ofSubparser p [] = .ok ([], []) := by
  simp [ofSubparser, allConsuming, many0, complete, cut, h]

theorem several_unfinished (D : Deps) :
    (Prog.several .der 16 (.prim (.typed .der 2)) : Prog BerError _).run D
      [0x30, 7, 0x02, 0x85, 1, 0, 0, 0, 0] = .err (.error (.nomError .eof)) := by
  have h : frame (E := BerError) .der [0x30, 7, 0x02, 0x85, 1, 0, 0, 0, 0] =
      .ok ([], (⟨.universal, true, 16, .definite 7, some [0x30]⟩, [0x02, 0x85, 1, 0, 0, 0, 0])) := rfl
  have hp : (Prog.prim (.typed .der 2) : Prog BerError _).run D [0x02, 0x85, 1, 0, 0, 0, 0] =
      .err (.incomplete (.size 4294967296)) := by
    simp only [Prog.run, Prim.run, parseTyped, big_typed, convertErr_id]
  simp only [Prog.run, ofV, definedG, container, h, ok_bind]
  rw [ofSubparser_unfinished (p := fun i => convertErr (Prim.run D (.typed .der 2) i)) hp]
  rfl

/-- C138: an element of `parse_*_sequence_of_v` that is unfinished ends the list with an `Error`, and one
that is refused with a `Failure`; so `opt` of the whole is absence with 64 bits and an error with 32. -/
theorem C138_several_differs (D : Deps) :
    (Prog.opt (.several .der 16 (.prim (.typed .der 2))) : Prog BerError _).run D
      [0x30, 7, 0x02, 0x85, 1, 0, 0, 0, 0] = .ok ([0x30, 7, 0x02, 0x85, 1, 0, 0, 0, 0], none) ∧
    (Prog.opt (.several .der 16 (.prim (.typed .der 2))) : Prog BerError _).runOn 32 D
      [0x30, 7, 0x02, 0x85, 1, 0, 0, 0, 0] = .err (.failure .invalidLength) := by
  refine ⟨?_, rfl⟩
  have h := several_unfinished D
  simp only [Prog.run] at h ⊢
  simp only [optionally, h]

/-- C138: if an element is read from other octets, the end of the list depends on the target. -/
theorem C138_within_differs (D : Deps) :
    (Prog.several .ber 16 (.within [0x02, 0x85, 1, 0, 0, 0, 0] (.prim (.typed .der 2))) :
      Prog BerError _).run D [0x30, 0] = .ok ([], []) ∧
    (Prog.several .ber 16 (.within [0x02, 0x85, 1, 0, 0, 0, 0] (.prim (.typed .der 2))) :
      Prog BerError _).runOn 32 D [0x30, 0] = .err (.failure .invalidLength) := by
  refine ⟨?_, rfl⟩
  have h : frame (E := BerError) .ber [0x30, 0] =
      .ok ([], (⟨.universal, true, 16, .definite 0, some [0x30]⟩, [])) := rfl
  have hp : (Prog.within [0x02, 0x85, 1, 0, 0, 0, 0] (.prim (.typed .der 2)) : Prog BerError _).run D [] =
      .err (.incomplete (.size 4294967296)) := by
    simp only [Prog.run, Prim.run, parseTyped, big_typed, convertErr_id, err_bind]
  have hs : ∀ f : Bytes → IRes BerError BerObject, f [] = .err (.incomplete (.size 4294967296)) →
      ofV .ber 16 f [0x30, 0] = .ok ([], []) := by
    intro f hf
    simp only [ofV, definedG, container, h, ok_bind, ofSubparser_end hf]
    rfl
  exact hs _ hp

/-- C138: a program within the hypotheses, on an input where the target matters: both refuse. -/
example (D : Deps) :
    ((Schema.sequenceOf (.typed 2)).prog .der).run D [0x30, 7, 0x02, 0x85, 1, 0, 0, 0, 0] =
      .err (.error (.nomError .eof)) ∧
    ((Schema.sequenceOf (.typed 2)).prog .der).runOn 32 D [0x30, 7, 0x02, 0x85, 1, 0, 0, 0, 0] =
      .err (.failure .invalidLength) := by
  refine ⟨?_, rfl⟩
  have h := several_unfinished D
  simp only [Prog.run] at h
  simp only [Schema.prog, Prog.map, Prog.run, h, err_bind]

/-- C138: a value that both give. -/
example (D : Deps) :
    ((Schema.sequenceOf (.typed 2)).prog .der).run D [0x30, 3, 0x02, 1, 7] =
      .ok ([], .fromSeq [.mk ⟨.universal, false, 2, .definite 1, some [0x02]⟩ (.integer [7])]) ∧
    ((Schema.sequenceOf (.typed 2)).prog .der).runOn 32 D [0x30, 3, 0x02, 1, 7] =
      .ok ([], .fromSeq [.mk ⟨.universal, false, 2, .definite 1, some [0x02]⟩ (.integer [7])]) :=
  ⟨rfl, rfl⟩

end Verif
