import Verif.Lang
import Verif.Props.Total
import Verif.Props.Program
/-!
# Every program written with the library: C118
-/
namespace Verif
open Outcome

variable {E : Type} [ParseErr E]

/-! ## What the user's own code has to keep -/

/-- The code of the user on values neither panics nor loops, for the values that the program before it can give.
Nothing is asked of the calls of the library and of the way they are put together. -/
def Prog.Safe (D : Deps) : {α : Type} → Prog E α → Prop
  | _, .value x => x.Returns
  | _, .bind p f => p.Safe D ∧ ∀ a, (∃ i rem, p.run D i = .ok (rem, a)) → (f a).Safe D
  | _, .prim _ => True
  | _, .container _ f => ∀ h, (f h).Safe D
  | _, .defined _ _ f => ∀ h, (f h).Safe D
  | _, .explicit _ _ f => ∀ h, (f h).Safe D
  | _, .implicit _ _ f => ∀ h d, (f h d).Safe D
  | _, .several _ _ p => p.Safe D
  | _, .within _ p => p.Safe D
  | _, .attempt p => p.Safe D
  | _, .opt p => p.Safe D
  | _, .orElse p q => p.Safe D ∧ q.Safe D
  | _, .many p => p.Safe D
  | _, .complete p => p.Safe D
  | _, .cut p => p.Safe D
  | _, .allConsuming p => p.Safe D
  | _, .eof => True

/-- Outside of containers the program does not ask whether something is absent or whether the input ends.  Inside
containers it may. -/
def Prog.Plain : {α : Type} → Prog E α → Prop
  | _, .value _ => True
  | _, .bind p f => p.Plain ∧ ∀ a, (f a).Plain
  | _, .prim _ => True
  | _, .container _ _ => True
  | _, .defined _ _ _ => True
  | _, .explicit _ _ _ => True
  | _, .implicit _ _ _ => True
  | _, .several _ _ _ => True
  | _, .within _ _ => True
  | _, .complete p => p.Plain
  | _, .cut p => p.Plain
  | _, .attempt _ => False
  | _, .opt _ => False
  | _, .orElse _ _ => False
  | _, .many _ => False
  | _, .allConsuming _ => False
  | _, .eof => False

/-! ## Helper lemmas -/

theorem prim_returns (D : Deps) {α : Type} (p : Prim α) (i : Bytes) : (p.run D i).Returns := by
  cases p with
  | any R d =>
    cases R
    · exact returns_parseBerAnyR D d i
    · exact returns_parseDerRecursive D d i
  | typed R tag =>
    cases R
    · exact returns_parseBerWithTag D tag i
    · exact returns_parseDerWithTag D tag i
  | uint R n =>
    cases R
    · exact returns_parseBerUint n.octets i
    · exact returns_parseDerUint n.octets i
  | int R n =>
    cases R
    · exact returns_parseBerInt n.octets i
    · exact returns_parseDerInt n.octets i
  | slice R tag => exact C03_slice_total R tag i
  | rawAny => exact returns_anyFromBer i
  | header R =>
    cases R
    · exact returns_headerFromBer i
    · exact returns_headerFromDer i
  | content R tag h d =>
    cases R
    · exact returns_berReadElementContentAs ..
    · exact returns_derReadElementContentAs ..
  | element h => exact returns_derReadElementContentRecursive ..

theorem prim_local (D : Deps) {α : Type} (p : Prim α) : Local (p.run D) := by
  cases p with
  | any R d =>
    cases R
    · exact local_parseBerAnyR D d
    · exact local_parseDerRecursive D d
  | typed R tag =>
    cases R
    · exact local_parseBerWithTag D tag
    · exact local_parseDerWithTag D tag
  | uint R n =>
    cases R
    · exact local_parseBerUint n.octets
    · exact local_parseDerUint n.octets
  | int R n =>
    cases R
    · exact local_parseBerInt n.octets
    · exact local_parseDerInt n.octets
  | slice R tag => exact (local_container R _ : Local (parseSlice R tag))
  | rawAny => exact local_anyFromBer
  | header R =>
    cases R
    · exact local_headerFromBer
    · exact local_headerFromDer
  | content R tag h d =>
    cases R
    · exact local_berReadElementContentAs D tag h.length h.constructed d
    · exact local_derReadElementContentAs D tag h.length h.constructed d
  | element h => exact local_derReadElementContentRecursive D h maxRecursion

theorem local_definedG {O : Type} (R : Rules) (tag : Nat) (f : Bytes → Header → IRes E O) : Local (definedG R tag f) :=
  local_container R _

theorem local_explicitG {O : Type} (R : Rules) (tag : Nat) (f : Bytes → Header → IRes E O) :
    Local (taggedExplicitG R tag f) := local_container R _

theorem local_implicitG {O : Type} (R : Rules) (tag : Nat) (f : Bytes → Header → Nat → IRes E O) :
    Local (taggedImplicitG R tag f) := local_container R _

theorem local_ofV {T : Type} (R : Rules) (tag : Nat) (f : Bytes → IRes E T) : Local (ofV R tag f) :=
  local_definedG R tag _

theorem many0_suffix {T : Type} {p : Bytes → IRes E T} (hp : ∀ i rem a, p i = .ok (rem, a) → rem <:+ i)
    (fuel : Nat) (i rem : Bytes) (v : List T) (h : many0 p fuel i = .ok (rem, v)) : rem <:+ i := by
  induction fuel generalizing i v with
  | zero => simp [many0] at h
  | succ fuel ih =>
    unfold many0 at h
    split at h
    · simp only [ok.injEq, Prod.mk.injEq] at h
      rw [← h.1]
      exact List.suffix_refl _
    · simp at h
    · simp at h
    · simp at h
    · rename_i r hr
      split at h
      · simp at h
      · obtain ⟨s, h1, h2⟩ := bind_eq_ok.1 h
        simp only [ok.injEq, Prod.mk.injEq] at h2
        obtain ⟨rfl, rfl⟩ := h2
        exact (ih _ _ h1).trans (hp _ _ _ hr)

theorem complete_ok {α : Type} {p : Bytes → IRes E α} {i : Bytes} {r : Bytes × α} :
    complete p i = .ok r ↔ p i = .ok r := by
  unfold complete
  cases h : p i with
  | ok r => simp
  | err e => cases e <;> simp
  | panic => simp
  | diverge => simp

omit [ParseErr E] in
theorem cut_ok {α : Type} {p : Bytes → IRes E α} {i : Bytes} {r : Bytes × α} :
    cut p i = .ok r ↔ p i = .ok r := by
  unfold cut
  cases h : p i with
  | ok r => simp
  | err e => cases e <;> simp
  | panic => simp
  | diverge => simp

theorem prog_suffix (D : Deps) {α : Type} (p : Prog E α) (i rem : Bytes) (a : α) (h : p.run D i = .ok (rem, a)) :
    rem <:+ i := by
  have hloc : ∀ {β : Type} {q : Bytes → IRes E β} {i rem : Bytes} {b : β}, Local q → q i = .ok (rem, b) → rem <:+ i := by
    intro β q i rem b hq hr
    obtain ⟨pre, hi, _⟩ := hq i rem b hr
    exact ⟨pre, hi.symm⟩
  induction p generalizing i rem with
  | value x =>
    obtain ⟨b, _, h2⟩ := bind_eq_ok.1 h
    simp only [ok.injEq, Prod.mk.injEq] at h2
    rw [← h2.1]
    exact List.suffix_refl _
  | bind p f ihp ihf =>
    obtain ⟨r, h1, h2⟩ := bind_eq_ok.1 h
    exact (ihf _ _ _ _ h2).trans (ihp _ _ _ h1)
  | prim p => exact hloc ((prim_local D p).mapErr _) h
  | container R f _ => exact hloc (local_container R _) h
  | defined R tag f _ => exact hloc (local_definedG R tag _) h
  | explicit R tag f _ => exact hloc (local_explicitG R tag _) h
  | implicit R tag f _ => exact hloc (local_implicitG R tag _) h
  | several R tag p _ => exact hloc (local_ofV R tag _) h
  | within b p _ =>
    obtain ⟨r, _, h2⟩ := bind_eq_ok.1 h
    simp only [ok.injEq, Prod.mk.injEq] at h2
    rw [← h2.1]
    exact List.suffix_refl _
  | attempt p ih =>
    simp only [Prog.run, attempting] at h
    split at h
    · rename_i r hr
      simp only [ok.injEq, Prod.mk.injEq] at h
      rw [← h.1]
      exact ih _ _ _ hr
    · simp only [ok.injEq, Prod.mk.injEq] at h
      rw [← h.1]
      exact List.suffix_refl _
    · simp at h
    · simp at h
  | opt p ih =>
    simp only [Prog.run, optionally] at h
    split at h
    · rename_i r hr
      simp only [ok.injEq, Prod.mk.injEq] at h
      rw [← h.1]
      exact ih _ _ _ hr
    · simp only [ok.injEq, Prod.mk.injEq] at h
      rw [← h.1]
      exact List.suffix_refl _
    · simp at h
    · simp at h
    · simp at h
  | orElse p q ihp ihq =>
    simp only [Prog.run, either] at h
    split at h
    · exact ihq _ _ _ h
    · exact ihp _ _ _ h
  | many p ih => exact many0_suffix ih _ _ _ _ h
  | complete p ih => exact ih _ _ _ (complete_ok.1 h)
  | cut p ih => exact ih _ _ _ (cut_ok.1 h)
  | allConsuming p ih =>
    obtain ⟨r, h1, h2⟩ := bind_eq_ok.1 h
    split at h2
    · simp only [ok.injEq] at h2
      subst h2
      exact ih _ _ _ h1
    · simp at h2
  | eof =>
    cases i with
    | nil =>
      simp only [Prog.run, atEnd, ok.injEq, Prod.mk.injEq] at h
      rw [← h.1]
      exact List.suffix_refl _
    | cons b bs => simp [Prog.run, atEnd] at h

theorem prog_returns (D : Deps) {α : Type} (p : Prog E α) (hp : p.Safe D) (i : Bytes) : (p.run D i).Returns := by
  induction p generalizing i with
  | value x => exact returns_bind hp fun _ _ => by simp
  | bind p f ihp ihf =>
    exact returns_bind (ihp hp.1 i) fun r hr => ihf _ (hp.2 r.2 ⟨i, r.1, hr⟩) _
  | prim p => simpa [Prog.run] using prim_returns D p i
  | container R f ih => exact C04_container_total R _ i fun c h => ih h (hp h) c
  | defined R tag f ih => exact C04_defined_total R tag _ i fun c h => ih h (hp h) c
  | explicit R tag f ih => exact C04_tagged_explicit_g_total R tag _ i fun c h => ih h (hp h) c
  | implicit R tag f ih => exact C04_tagged_implicit_g_total R tag _ i fun c h d => ih h d (hp h d) c
  | several R tag p ih =>
    exact C04_of_v_total_partial R tag _ i (ih hp) fun j rem a h => (prog_suffix D p j rem a h).length_le
  | within b p ih => exact returns_bind (ih hp b) fun _ _ => by simp
  | attempt p ih =>
    have := ih hp i
    simp only [Prog.run, attempting]
    split
    · simp
    · simp
    · rename_i h; simp [h] at this
    · rename_i h; simp [h] at this
  | opt p ih =>
    have := ih hp i
    simp only [Prog.run, optionally]
    split
    · simp
    · simp
    · simp
    · rename_i h; simp [h] at this
    · rename_i h; simp [h] at this
  | orElse p q ihp ihq =>
    simp only [Prog.run, either]
    split
    · exact ihq hp.2 i
    · exact ihp hp.1 i
  | many p ih =>
    exact returns_many0 (n := i.length) (Nat.le_refl _) (fun j _ => ih hp j)
      (fun j rem a _ h => (prog_suffix D p j rem a h).length_le) (by omega)
  | complete p ih =>
    have := ih hp i
    simp only [Prog.run, complete]
    split
    · simp
    · exact this
  | cut p ih =>
    have := ih hp i
    simp only [Prog.run, cut]
    split
    · simp
    · exact this
  | allConsuming p ih => exact returns_bind (ih hp i) fun r _ => by split <;> simp
  | eof => cases i <;> simp [Prog.run, atEnd]

theorem prog_local (D : Deps) {α : Type} (p : Prog E α) (hp : p.Plain) : Local (p.run D) := by
  induction p with
  | value x => exact Local.const x
  | bind p f ihp ihf => exact (ihp hp.1).bind (f := fun a i => (f a).run D i) fun a => ihf a (hp.2 a)
  | prim p => exact (prim_local D p).mapErr _
  | container R f _ => exact local_container R _
  | defined R tag f _ => exact local_definedG R tag _
  | explicit R tag f _ => exact local_explicitG R tag _
  | implicit R tag f _ => exact local_implicitG R tag _
  | several R tag p _ => exact local_ofV R tag _
  | within b p _ =>
    exact Local.guard (f := fun (v : Bytes × _) i => .ok (i, v.2)) fun _ _ => Local.ok _
  | attempt p _ => exact hp.elim
  | opt p _ => exact hp.elim
  | orElse p q _ _ => exact hp.elim
  | many p _ => exact hp.elim
  | complete p ih =>
    intro i rem a h
    obtain ⟨pre, h1, h2⟩ := ih hp i rem a (complete_ok.1 h)
    exact ⟨pre, h1, fun x => complete_ok.2 (h2 x)⟩
  | cut p ih =>
    intro i rem a h
    obtain ⟨pre, h1, h2⟩ := ih hp i rem a (cut_ok.1 h)
    exact ⟨pre, h1, fun x => cut_ok.2 (h2 x)⟩
  | allConsuming p _ => exact hp.elim
  | eof => exact hp.elim

/-! ## C118 -/

/-- C118: no program written with the library panics or runs for ever, on any input, if the user's own code between
the calls does not: whatever the calls are, however they are nested, and whatever the values between them decide. -/
theorem C118_total (D : Deps) {α : Type} (p : Prog E α) (hp : p.Safe D) (i : Bytes) : (p.run D i).Returns :=
  prog_returns D p hp i

/-- C118: the rest of the input that a program gives back is the end of the input it was given.  Without any condition on
the program. -/
theorem C118_suffix (D : Deps) {α : Type} (p : Prog E α) (i rem : Bytes) (a : α) (h : p.run D i = .ok (rem, a)) :
    ∃ pre, i = pre ++ rem := by
  obtain ⟨pre, h1⟩ := prog_suffix D p i rem a h
  exact ⟨pre, h1.symm⟩

/-- Two integers, of which the second is absent. -/
example (D : Deps) := C118_suffix (E := BerError) D (.bind (.prim (.uint .der .w32)) fun _ => .opt (.prim (.int .ber .w64)))
  [0x02, 0x01, 0x05, 0x05, 0x00] [0x05, 0x00] none rfl

/-- C118: the value does not depend on what follows the octets that were read, for a program that asks about absence and
the end of the input only inside containers. -/
theorem C118_local (D : Deps) {α : Type} (p : Prog E α) (hp : p.Plain) (i rem : Bytes) (a : α)
    (h : p.run D i = .ok (rem, a)) : ∃ pre, i = pre ++ rem ∧ ∀ x, p.run D (pre ++ x) = .ok (x, a) :=
  prog_local D p hp i rem a h

/-- C118: outside of a container, asking about absence makes the value depend on what follows: an optional BOOLEAN is
absent or not. -/
theorem C118_local_counterexample (D : Deps) : ∃ (p : Prog BerError (Option BerObject)),
    p.run D [] = .ok ([], none) ∧ p.run D [0x01, 0x01, 0x00] ≠ .ok ([0x01, 0x01, 0x00], none) :=
  ⟨.attempt (.prim (.any .ber 50)), rfl, fun h => by
    have : (Prog.attempt (.prim (.any .ber 50)) : Prog BerError (Option BerObject)).run D [0x01, 0x01, 0x00] =
      .ok ([], some (.mk ⟨.universal, false, 1, .definite 1, some [1]⟩ (.boolean false))) := rfl
    rw [this] at h
    simp at h⟩

/-! ## The programs of the other properties are programs in this sense -/

theorem convertErr_id {α : Type} (x : Outcome (NomErr BerError) α) : convertErr (E := BerError) x = x := by
  cases x with
  | err e => cases e <;> rfl
  | _ => rfl

theorem bind_assoc' {ε α β γ : Type} (x : Outcome ε α) (f : α → Outcome ε β) (g : β → Outcome ε γ) :
    (x >>? f >>? g) = x >>? fun a => f a >>? g := by cases x <;> rfl

theorem run_map {α β : Type} (D : Deps) (g : α → β) (p : Prog E α) : (Prog.map g p).run D = mapRes g (p.run D) := rfl

theorem run_prim {α : Type} (D : Deps) (p : Prim α) : (Prog.prim p : Prog BerError α).run D = p.run D :=
  funext fun _ => convertErr_id _

theorem run_optional (D : Deps) (p : Prog BerError BerObject) :
    (Prog.map optionalObject (.attempt p)).run D = parseOptional (p.run D) := by
  funext i
  rw [run_map]
  simp only [mapRes, Prog.run, attempting, parseOptional]
  cases p.run D i <;> rfl

theorem run_altProg (D : Deps) (R : Rules) (tag : Nat) (tags : List Nat) :
    (altProg R tag tags).run D = alt (parseTyped D R) tag tags := by
  induction tags generalizing tag with
  | nil => rw [altProg, run_prim]; rfl
  | cons t ts ih =>
    funext i
    rw [altProg, alt]
    simp only [Prog.run, either, ih, convertErr_id]
    rw [show Prim.run D (.typed R tag) i = parseTyped D R tag i from rfl]
    cases parseTyped D R tag i with
    | err e => cases e <;> rfl
    | _ => rfl

mutual
theorem run_prog (D : Deps) (R : Rules) : (s : Schema) → (s.prog R).run D = s.run D R
  | .any => by
    rw [Schema.prog, run_prim]
    cases R <;> rfl
  | .typed tag => by
    rw [Schema.prog, run_prim]
    cases R <;> rfl
  | .choice tag tags => by
    rw [Schema.prog, run_altProg]
    cases R <;> rfl
  | .sequenceOf s => by
    rw [Schema.prog, run_map, Prog.run, run_prog D R s]; rfl
  | .setOf s => by
    rw [Schema.prog, run_map, Prog.run, run_prog D R s]; rfl
  | .sequence l => by
    rw [Schema.prog, run_map, Prog.run, run_progAll D R l]; rfl
  | .set l => by
    rw [Schema.prog, run_map, Prog.run, run_progAll D R l]; rfl
  | .explicit tag s => by
    rw [Schema.prog, Prog.run]
    simp only [run_map, run_prog D R s]; rfl
  | .implicit tag type => by
    rw [Schema.prog, Prog.run]
    simp only [run_map, run_prim]
    cases R <;> rfl
  | .optional s => by
    rw [Schema.prog, run_optional, run_prog D R s]; rfl
  | .explicitOptional tag s => by
    rw [Schema.prog, run_optional, Prog.run]
    simp only [run_map, run_prog D R s]; rfl
theorem run_progAll (D : Deps) (R : Rules) : (l : List Schema) → (Schema.progAll R l).run D = Schema.runAll D R l
  | [] => rfl
  | s :: l => by
    funext i
    rw [Schema.progAll, Schema.runAll, Prog.run]
    simp only [run_map, run_prog D R s, run_progAll D R l]; rfl
end

/-- C118: every composed parser of C96 to C98 is such a program. -/
theorem C118_composed (D : Deps) (R : Rules) (s : Schema) : (s.prog R).run D = s.run D R := run_prog D R s

/-- C118: `parse_myobject` of the documentation is such a program.  Its `unwrap()` is code of the user that could panic;
that it does not follows from the values that reach it. -/
theorem C118_my_object (D : Deps) (R : Rules) (tag : Nat) :
    (myObjectProg R tag).run D = parseMyObject D R tag ∧ (myObjectProg R tag).Safe D := by
  constructor
  · have h4 : (Prim.uint R .w32).run D = parseU32 R := by cases R <;> rfl
    have h5 : (Prim.typed R Tag.octetString).run D = parseTyped D R Tag.octetString := by cases R <;> rfl
    rw [myObjectProg, Prog.run]
    unfold parseMyObject
    congr 1
    funext c _
    simp only [Prog.run, convertErr_id, h4, h5, myObjectFields]
    cases parseU32 R c with
    | ok r =>
      simp only [ok_bind]
      cases parseTyped D R Tag.octetString r.1 with
      | ok s =>
        simp only [ok_bind]
        cases s.2.asSlice <;> rfl
      | _ => rfl
    | _ => rfl
  · intro _
    refine ⟨trivial, fun a _ => ⟨trivial, fun o ho => ?_⟩⟩
    obtain ⟨i, rem, h⟩ := ho
    rw [run_prim] at h
    obtain ⟨c, _, h6⟩ := typedBy_octets.1 (parseTyped_iff.1 h)
    have h7 : o.asSlice = .ok c := by unfold BerObject.asSlice; rw [h6]; rfl
    simp only [h7]
    trivial

/-- C118: `parse_name` of the tests is such a program. -/
theorem C118_name (D : Deps) : nameProg.run D = parseName D := by
  have h1 : attrProg.run D = parseAttr D := by
    rw [attrProg, Prog.run]
    unfold parseAttr
    congr 1
    funext c _
    simp only [Prog.run, Prog.mapRes, run_map, run_altProg, convertErr_id, mapResult]
    rw [show Prim.run D (.typed .ber Tag.oid) c = parseBerWithTag D Tag.oid c from rfl]
    cases parseBerWithTag D Tag.oid c with
    | ok r =>
      simp only [ok_bind]
      cases r.2.asOid <;> rfl
    | _ => rfl
  rw [nameProg, Prog.run]
  unfold parseName
  congr 1
  funext c _
  simp only [Prog.run, h1]
  rfl

/-! ## A program with an error type of its own, code on values, and octets read from inside a value -/

/-- Errors of a user: one of the library, or one of their own. -/
inductive OwnError where
  | library (e : BerError)
  | version (n : Nat)

instance : ParseErr OwnError where
  ofBer := .library
  ofKind _ k := .library (.nomError k)

/-- A SEQUENCE with a version, an OCTET STRING that wraps a list of integers, and nothing more; only version 1 is
accepted. -/
def wrappedProg : Prog OwnError (List Nat) :=
  .defined .der Tag.sequence fun _ =>
    .bind (.prim (.uint .der .w32)) fun v =>
      .bind (if v = 1 then .pure () else .fail (.version v)) fun _ =>
        .bind (.prim (.slice .der Tag.octetString)) fun b =>
          .bind .eof fun _ => .within b (.several .der Tag.sequence (.prim (.uint .der .w64)))

theorem wrappedProg_safe (D : Deps) : wrappedProg.Safe D := by
  refine fun _ => ⟨trivial, fun v _ => ⟨?_, fun _ _ => ⟨trivial, fun b _ => ⟨trivial, fun _ _ => trivial⟩⟩⟩⟩
  split <;> trivial

example (D : Deps) (i : Bytes) : (wrappedProg.run D i).Returns := C118_total D _ (wrappedProg_safe D) i

example (D : Deps) (i : Bytes) : ((myObjectProg .ber 16).run D i).Returns :=
  C118_total D _ (C118_my_object D .ber 16).2 i

example (D : Deps) : wrappedProg.run D
    [0x30, 0x0c, 0x02, 0x01, 0x01, 0x04, 0x07, 0x30, 0x05, 0x02, 0x01, 0x07, 0x02, 0x00, 0xff] =
      .err (.failure (.library (.derConstraintFailed .integerEmpty))) := rfl

example (D : Deps) : wrappedProg.run D
    [0x30, 0x0d, 0x02, 0x01, 0x01, 0x04, 0x08, 0x30, 0x06, 0x02, 0x01, 0x07, 0x02, 0x01, 0x09, 0xff] =
      .ok ([0xff], [7, 9]) := rfl

example (D : Deps) : wrappedProg.run D [0x30, 0x03, 0x02, 0x01, 0x02] = .err (.error (.version 2)) := rfl

example (D : Deps) (x : Bytes) : wrappedProg.run D
    ([0x30, 0x0d, 0x02, 0x01, 0x01, 0x04, 0x08, 0x30, 0x06, 0x02, 0x01, 0x07, 0x02, 0x01, 0x09] ++ x) =
      .ok (x, [7, 9]) := by
  obtain ⟨pre, h1, h2⟩ := C118_local D wrappedProg trivial
    [0x30, 0x0d, 0x02, 0x01, 0x01, 0x04, 0x08, 0x30, 0x06, 0x02, 0x01, 0x07, 0x02, 0x01, 0x09] [] [7, 9] rfl
  rw [List.append_nil] at h1
  rw [h1]
  exact h2 x

end Verif
