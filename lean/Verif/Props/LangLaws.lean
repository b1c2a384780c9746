import Verif.Props.Lang
import Verif.Props.Row
/-!
# Laws of programs: C59 and C115 for every program, and how the combinators are made of one another
-/
namespace Verif
open Outcome Spec

/-- The program with another error type: the user's own errors are mapped, the functions and combinators of the library
are used at the other type. -/
def Prog.mapErr {E F : Type} (φ : E → F) : {α : Type} → Prog E α → Prog F α
  | _, .value x => .value (x.mapErr (NomErr.map φ))
  | _, .bind p f => .bind (p.mapErr φ) fun a => (f a).mapErr φ
  | _, .prim p => .prim p
  | _, .container R f => .container R fun h => (f h).mapErr φ
  | _, .defined R tag f => .defined R tag fun h => (f h).mapErr φ
  | _, .explicit R tag f => .explicit R tag fun h => (f h).mapErr φ
  | _, .implicit R tag f => .implicit R tag fun h d => (f h d).mapErr φ
  | _, .several R tag p => .several R tag (p.mapErr φ)
  | _, .within b p => .within b (p.mapErr φ)
  | _, .attempt p => .attempt (p.mapErr φ)
  | _, .opt p => .opt (p.mapErr φ)
  | _, .orElse p q => .orElse (p.mapErr φ) (q.mapErr φ)
  | _, .many p => .many (p.mapErr φ)
  | _, .complete p => .complete (p.mapErr φ)
  | _, .cut p => .cut (p.mapErr φ)
  | _, .allConsuming p => .allConsuming (p.mapErr φ)
  | _, .eof => .eof

section
variable {E F : Type} {φ : E → F}

/-- Agreement of two answers: the second is the first with its errors mapped. -/
abbrev Mapped (φ : E → F) {α : Type} (x : Outcome (NomErr E) α) (y : Outcome (NomErr F) α) : Prop :=
  Sim (fun e e' => φ e = e') x y

theorem mapped_self {α : Type} (x : Outcome (NomErr E) α) : Mapped φ x (x.mapErr (NomErr.map φ)) := by
  cases x with
  | ok a => exact .ok a
  | err e => cases e with
    | incomplete n => exact .incomplete n
    | error e => exact .error _ _ rfl
    | failure e => exact .failure _ _ rfl
  | panic => exact .panic
  | diverge => exact .diverge

theorem mapped_eq {α : Type} {x : Outcome (NomErr E) α} {y : Outcome (NomErr F) α} (h : Mapped φ x y) :
    y = x.mapErr (NomErr.map φ) := by
  cases h with
  | ok a => rfl
  | incomplete n => rfl
  | error e e' h => subst h; rfl
  | failure e e' h => subst h; rfl
  | panic => rfl
  | diverge => rfl

variable [ParseErr E] [ParseErr F]

theorem mapped_many0 {α : Type} (hQ : ErrRel (fun (e : E) (e' : F) => φ e = e')) {f : Bytes → IRes E α}
    {g : Bytes → IRes F α} (hfg : ∀ c, Mapped φ (f c) (g c)) (fuel : Nat) (i : Bytes) :
    Mapped φ (many0 f fuel i) (many0 g fuel i) := by
  induction fuel generalizing i with
  | zero => exact .diverge
  | succ fuel ih =>
    unfold many0
    have h := hfg i
    generalize f i = x at h
    generalize g i = y at h
    cases h with
    | ok a =>
      dsimp only
      split
      · exact .error _ _ (hQ.ofKind _ _)
      · exact sim_bind (ih _) fun _ => .ok _
    | incomplete n => exact .incomplete n
    | error e e' h => exact .ok _
    | failure e e' h => exact .failure e e' h
    | panic => exact .panic
    | diverge => exact .diverge

theorem prog_mapped (D : Deps) (hQ : ErrRel (fun (e : E) (e' : F) => φ e = e')) {α : Type} (p : Prog E α) (i : Bytes) :
    Mapped φ (p.run D i) ((p.mapErr φ).run D i) := by
  induction p generalizing i with
  | value x => exact sim_bind (mapped_self x) fun _ => .ok _
  | bind p f ihp ihf => exact sim_bind (ihp i) fun r => ihf r.2 r.1
  | prim p => exact sim_convertErr hQ _
  | container R f ih => exact C59_container hQ R _ _ (fun c h => ih h c) i
  | defined R tag f ih => exact C59_defined hQ R tag _ _ (fun c h => ih h c) i
  | explicit R tag f ih => exact C59_tagged_explicit hQ R tag _ _ (fun c h => ih h c) i
  | implicit R tag f ih => exact C59_tagged_implicit hQ R tag _ _ (fun c h d => ih h d c) i
  | several R tag p ih => exact C59_of_v hQ R tag _ _ ih i
  | within b p ih => exact sim_bind (ih b) fun _ => .ok _
  | attempt p ih =>
    have h := ih i
    simp only [Prog.mapErr, Prog.run, attempting]
    generalize p.run D i = x at h
    generalize (p.mapErr φ).run D i = y at h
    cases h with
    | panic => exact .panic
    | diverge => exact .diverge
    | _ => exact .ok _
  | opt p ih =>
    have h := ih i
    simp only [Prog.mapErr, Prog.run, optionally]
    generalize p.run D i = x at h
    generalize (p.mapErr φ).run D i = y at h
    cases h with
    | panic => exact .panic
    | diverge => exact .diverge
    | incomplete n => exact .incomplete n
    | failure e e' h => exact .failure e e' h
    | _ => exact .ok _
  | orElse p q ihp ihq =>
    have h := ihp i
    simp only [Prog.mapErr, Prog.run, either]
    generalize p.run D i = x at h
    generalize (p.mapErr φ).run D i = y at h
    cases h with
    | panic => exact .panic
    | diverge => exact .diverge
    | incomplete n => exact .incomplete n
    | failure e e' h => exact .failure e e' h
    | error e e' h => exact ihq i
    | ok a => exact .ok a
  | many p ih => exact mapped_many0 hQ ih _ i
  | complete p ih =>
    have h := ih i
    simp only [Prog.mapErr, Prog.run, complete]
    generalize p.run D i = x at h
    generalize (p.mapErr φ).run D i = y at h
    cases h with
    | panic => exact .panic
    | diverge => exact .diverge
    | incomplete n => exact .error _ _ (hQ.ofKind _ _)
    | failure e e' h => exact .failure e e' h
    | error e e' h => exact .error e e' h
    | ok a => exact .ok a
  | cut p ih =>
    have h := ih i
    simp only [Prog.mapErr, Prog.run, cut]
    generalize p.run D i = x at h
    generalize (p.mapErr φ).run D i = y at h
    cases h with
    | panic => exact .panic
    | diverge => exact .diverge
    | incomplete n => exact .incomplete n
    | failure e e' h => exact .failure e e' h
    | error e e' h => exact .failure e e' h
    | ok a => exact .ok a
  | allConsuming p ih =>
    refine sim_bind (ih i) fun r => ?_
    split
    · exact .ok _
    · exact .error _ _ (hQ.ofKind _ _)
  | eof =>
    simp only [Prog.mapErr, Prog.run, atEnd]
    cases i with
    | nil => exact .ok _
    | cons _ _ => exact .error _ _ (hQ.ofKind _ _)

/-- C59 for every program: with another error type, to which errors of the library and of `nom` are brought by the
functions of that type, a program gives the same values and rests and the same `Incomplete` answers, and the same errors
mapped. -/
theorem C59_programs (D : Deps) (φ : E → F) (h1 : ∀ e, φ (ParseErr.ofBer e) = ParseErr.ofBer e)
    (h2 : ∀ i k, φ (ParseErr.ofKind i k) = ParseErr.ofKind i k) {α : Type} (p : Prog E α) (i : Bytes) :
    (p.mapErr φ).run D i = (p.run D i).mapErr (NomErr.map φ) :=
  mapped_eq (prog_mapped D ⟨h1, h2⟩ p i)

end

/-- Any program with `BerError` can be used with the error type of the user, and answers the same. -/
example (D : Deps) (R : Rules) (i : Bytes) :
    ((myObjectProg R 16).mapErr OwnError.library).run D i =
      ((myObjectProg R 16).run D i).mapErr (NomErr.map OwnError.library) :=
  C59_programs D OwnError.library (fun _ => rfl) (fun _ _ => rfl) _ i

/-! ## Documents in a row -/

section
variable {E : Type} [ParseErr E]

/-- C115 for every program that asks about absence and the end of input only inside containers: what it accepts whole is
read the same whatever follows. -/
theorem C115_program (D : Deps) {α : Type} (p : Prog E α) (hp : p.Plain) (e x : Bytes) (a : α)
    (h : p.run D e = .ok ([], a)) : p.run D (e ++ x) = .ok (x, a) := by
  obtain ⟨pre, h1, h2⟩ := C118_local D p hp e [] a h
  rw [List.append_nil] at h1
  rw [h1]
  exact h2 x

/-- The program for a version and wrapped numbers. -/
example (D : Deps) := C115_program D wrappedProg trivial
  [0x30, 0x0d, 0x02, 0x01, 0x01, 0x04, 0x08, 0x30, 0x06, 0x02, 0x01, 0x07, 0x02, 0x01, 0x09] [0xff] [7, 9] rfl

/-- C115: documents that such a program accepts, one after the other, are read one by one as the same values. -/
theorem C115_program_row (D : Deps) {α : Type} (p : Prog E α) (hp : p.Plain) (rest : Bytes) :
    ∀ ps : List (Bytes × α), (∀ q ∈ ps, q.1 ≠ [] ∧ p.run D q.1 = .ok ([], q.2)) →
      Items (p.run D) ((ps.map Prod.fst).flatten ++ rest) (ps.map Prod.snd) rest
  | [], _ => .nil rest
  | q :: ps, h => by
    have h1 := h q (List.mem_cons_self ..)
    have ih := C115_program_row D p hp rest ps fun q' hq => h q' (List.mem_cons_of_mem _ hq)
    simp only [List.map_cons, List.flatten_cons, List.append_assoc]
    refine .cons _ ((ps.map Prod.fst).flatten ++ rest) q.2 _ _ (C115_program D p hp q.1 _ q.2 h1.2) ?_ ih
    have : 0 < q.1.length := List.length_pos_iff.2 h1.1
    simp only [List.length_append]
    omega

example (D : Deps) := C115_program_row (E := BerError) D (.prim (.uint .der .w32)) trivial [0xff]
  [([0x02, 0x01, 0x05], 5), ([0x02, 0x01, 0x06], 6)] (by simp; exact ⟨rfl, rfl⟩)

/-- C115: no other list of documents accepted by the program has the same octets. -/
theorem C115_program_unique (D : Deps) {α : Type} (p : Prog E α) (hp : p.Plain) :
    ∀ ps qs : List (Bytes × α), (∀ q ∈ ps, q.1 ≠ [] ∧ p.run D q.1 = .ok ([], q.2)) →
      (∀ q ∈ qs, q.1 ≠ [] ∧ p.run D q.1 = .ok ([], q.2)) →
      (ps.map Prod.fst).flatten = (qs.map Prod.fst).flatten → ps = qs
  | [], [], _, _, _ => rfl
  | [], q :: qs, _, h2, h => by
    have := (h2 q (List.mem_cons_self ..)).1
    simp at h
    exact absurd h.1 this
  | q :: ps, [], h1, _, h => by
    have := (h1 q (List.mem_cons_self ..)).1
    simp at h
    exact absurd h.1 this
  | q :: ps, r :: qs, h1, h2, h => by
    simp only [List.map_cons, List.flatten_cons] at h
    have hq := C115_program D p hp q.1 (ps.map Prod.fst).flatten q.2 (h1 q (List.mem_cons_self ..)).2
    have hr := C115_program D p hp r.1 (qs.map Prod.fst).flatten r.2 (h2 r (List.mem_cons_self ..)).2
    rw [h, hr] at hq
    simp only [Outcome.ok.injEq, Prod.mk.injEq] at hq
    rw [hq.1] at h
    have hd : q.1 = r.1 := List.append_cancel_right h
    have ih := C115_program_unique D p hp ps qs (fun x hx => h1 x (List.mem_cons_of_mem _ hx))
      (fun x hx => h2 x (List.mem_cons_of_mem _ hx)) hq.1.symm
    rw [ih, show q = r from Prod.ext hd hq.2.symm]

example (D : Deps) := C115_program_unique (E := BerError) D (.prim (.uint .der .w32)) trivial
  [([0x02, 0x01, 0x05], 5), ([0x02, 0x01, 0x06], 6)] [([0x02, 0x01, 0x05], 5), ([0x02, 0x01, 0x06], 6)]
  (by simp; exact ⟨rfl, rfl⟩) (by simp; exact ⟨rfl, rfl⟩) rfl

/-! ## How the combinators are made of one another -/

/-- C118: `parse_*_sequence_of_v` is `parse_*_sequence_defined_g` of
`all_consuming(many0(complete(cut(f))))`. -/
theorem C118_several (D : Deps) {α : Type} (R : Rules) (tag : Nat) (p : Prog E α) :
    (Prog.several R tag p).run D =
      (Prog.defined R tag fun _ => .allConsuming (.many (.complete (.cut p)))).run D := rfl

/-- C118: `parse_*_sequence_defined_g` and the functions for tags are containers with a test of the header first. -/
theorem C118_defined (D : Deps) {α : Type} (R : Rules) (tag : Nat) (f : Header → Prog E α) :
    (Prog.defined R tag f).run D = (Prog.container R fun h =>
        if h.tag = tag then f h else .fail (ParseErr.ofBer (.unexpectedTag (some tag) h.tag))).run D ∧
    (Prog.implicit R tag fun h _ => f h).run D = (Prog.defined R tag f).run D ∧
    (Prog.explicit R tag f).run D = (Prog.container R fun h =>
        if h.cls = .universal then .fail (ParseErr.ofBer (.unexpectedClass none .universal))
        else if h.tag ≠ tag then .fail (ParseErr.ofBer (.unexpectedTag (some tag) h.tag))
        else if h.constructed = false then .fail (ParseErr.ofBer .constructExpected)
        else f h).run D := by
  refine ⟨?_, rfl, ?_⟩
  · simp only [Prog.run, definedG]
    congr 1
    funext c h
    by_cases ht : h.tag = tag
    · rw [if_pos ht]; simp [Header.assertTag, ht, liftResE]
    · rw [if_neg ht]; simp [Header.assertTag, ht, liftResE, Prog.fail, Prog.run]
  · simp only [Prog.run, taggedExplicitG]
    congr 1
    funext c h
    by_cases hc : h.cls = .universal
    · rw [if_pos hc, if_pos hc, hc]; rfl
    · rw [if_neg hc, if_neg hc]
      by_cases ht : h.tag = tag
      · rw [if_neg (by simpa using ht)]
        cases hk : h.constructed <;>
          simp [Header.assertTag, Header.assertConstructed, ht, hk, liftResE, Prog.fail, Prog.run]
      · rw [if_pos ht]; simp [Header.assertTag, ht, liftResE, Prog.fail, Prog.run]

/-- C118: `parse_ber_optional` and `nom::combinator::opt` give the same answer unless the parser asks for more octets or
fails for good; then `opt` passes that on and `parse_ber_optional` says absent. -/
theorem C118_attempt_opt (D : Deps) {α : Type} (p : Prog E α) (i : Bytes) :
    ((Prog.attempt p).run D i = (Prog.opt p).run D i ↔ ∀ x, p.run D i = .err x → ∃ e, x = .error e) ∧
    ∀ x, p.run D i = .err x → (∀ e, x ≠ .error e) →
      (Prog.attempt p).run D i = .ok (i, none) ∧ (Prog.opt p).run D i = .err x := by
  simp only [Prog.run, attempting, optionally]
  cases p.run D i with
  | err x => cases x <;> simp
  | _ => simp

/-- An element that is cut. -/
example (D : Deps) := (C118_attempt_opt (E := BerError) D (.prim (.uint .der .w32)) [0x02, 0x02, 0x05]).2 (.incomplete (.size 1)) rfl
  (fun _ h => by cases h)

end

end Verif
