import Verif.Program
/-!
# Every program written with the library

A user of the library writes parsers by calling its functions, passing closures to its combinators, and computing with
the values in between.  `Prog` is the type of all such programs: the functions of the library, the combinators of the
library and of `nom` that the repository uses, sequencing (`?` and closures that go on with the value) and any code of the
user on values.  `Prog.run` gives a program its meaning with the model of the other files.

Simplifications: a closure is a function of its arguments (`Verif/Stateful.lean` has closures with state); a program is a
well-founded tree, so a parser of the user that calls itself without bound is not one; `alt` keeps the error of its last
branch, as `ParseError::or` and `append` of `BerError` do.
-/
namespace Verif
open Outcome

/-- The widths of the native integers that the library reads: `u32`, `i32` and `u64`, `i64`,
/repo/src/ber/parser.rs:562-591. -/
inductive Width where
  | w32
  | w64
deriving DecidableEq, Repr

/-- Octets of a native integer. -/
def Width.octets : Width → Nat
  | .w32 => 4
  | .w64 => 8

/-- The functions of the library that read from the input without a closure. -/
inductive Prim : Type → Type
  /-- `parse_ber_recursive` (/repo/src/ber/parser.rs:618-620), `parse_der_recursive` (/repo/src/der/parser.rs:47-56);
  with depth 50 `parse_ber`, `parse_der`. -/
  | any (R : Rules) (depth : Nat) : Prim BerObject
  /-- `parse_ber_with_tag` and `parse_ber_xxx` (/repo/src/ber/parser.rs:233-443), `parse_der_with_tag` and
  `parse_der_xxx` (/repo/src/der/parser.rs:70-299). -/
  | typed (R : Rules) (tag : Nat) : Prim BerObject
  /-- `parse_ber_u32`, `parse_ber_u64` (/repo/src/ber/parser.rs:580-591), `parse_der_u32`, `parse_der_u64`
  (/repo/src/der/parser.rs:389-399). -/
  | uint (R : Rules) (width : Width) : Prim Nat
  /-- `parse_ber_i32`, `parse_ber_i64` (/repo/src/ber/parser.rs:562-573), `parse_der_i32`, `parse_der_i64`
  (/repo/src/der/parser.rs:372-383). -/
  | int (R : Rules) (width : Width) : Prim Int
  /-- `parse_ber_slice` (/repo/src/ber/parser.rs:595-601), `parse_der_slice` (/repo/src/der/parser.rs:403-409). -/
  | slice (R : Rules) (tag : Nat) : Prim Bytes
  /-- `parse_ber_any` (/repo/src/ber/wrap_any.rs:32-34). -/
  | rawAny : Prim Any
  /-- `ber_read_element_header` (/repo/src/ber/parser.rs:116-118), `der_read_element_header`
  (/repo/src/der/parser.rs:630-632). -/
  | header (R : Rules) : Prim Header
  /-- `parse_ber_content` (/repo/src/ber/parser.rs:178-184), `parse_der_content` (/repo/src/der/parser.rs:436-442). -/
  | content (R : Rules) (tag : Nat) (hdr : Header) (depth : Nat) : Prim Content
  /-- `der_read_element_content` (/repo/src/der/parser.rs:553-555). -/
  | element (hdr : Header) : Prim BerObject

/-- The functions named at the constructors of `Prim`, with the citations there. -/
def Prim.run (D : Deps) : {α : Type} → Prim α → Bytes → IRes BerError α
  | _, .any .ber depth => parseBerRecursive D depth
  | _, .any .der depth => parseDerRecursive D depth
  | _, .typed R tag => parseTyped D R tag
  | _, .uint .ber width => parseBerUint width.octets
  | _, .uint .der width => parseDerUint width.octets
  | _, .int .ber width => parseBerInt width.octets
  | _, .int .der width => parseDerInt width.octets
  | _, .slice R tag => parseSlice R tag
  | _, .rawAny => parseBerAny
  | _, .header .ber => headerFromBer
  | _, .header .der => headerFromDer
  | _, .content R tag hdr depth => fun i => parseContentOf D R tag i hdr depth
  | _, .element hdr => fun i => derReadElementContent D i hdr

/-- A program that reads from the input and gives a value of type `α`, with errors of type `E`. -/
inductive Prog (E : Type) : Type → Type 1
  /-- Code of the user that does not read: a value, an error it makes, or a panic or endless loop of its own. -/
  | value {α : Type} (x : Outcome (NomErr E) α) : Prog E α
  /-- Go on with the value and the rest of the input. -/
  | bind {α β : Type} (p : Prog E α) (f : α → Prog E β) : Prog E β
  /-- A function of the library, with `.map_err(Err::convert)` for an error type of the user. -/
  | prim {α : Type} (p : Prim α) : Prog E α
  /-- `parse_*_container` (/repo/src/ber/multi.rs:514-530, /repo/src/der/multi.rs:515-534). -/
  | container {α : Type} (R : Rules) (f : Header → Prog E α) : Prog E α
  /-- `parse_*_sequence_defined_g`, `parse_*_set_defined_g` (/repo/src/ber/multi.rs:220-232, 444-455;
  /repo/src/der/multi.rs:221-233, 445-456). -/
  | defined {α : Type} (R : Rules) (tag : Nat) (f : Header → Prog E α) : Prog E α
  /-- `parse_*_tagged_explicit_g` (/repo/src/ber/tagged.rs:81-104, /repo/src/der/tagged.rs:82-106). -/
  | explicit {α : Type} (R : Rules) (tag : Nat) (f : Header → Prog E α) : Prog E α
  /-- `parse_*_tagged_implicit_g` (/repo/src/ber/tagged.rs:243-259, /repo/src/der/tagged.rs:245-261). -/
  | implicit {α : Type} (R : Rules) (tag : Nat) (f : Header → Nat → Prog E α) : Prog E α
  /-- `parse_*_sequence_of_v`, `parse_*_set_of_v` (/repo/src/ber/multi.rs:68-77, 293-300;
  /repo/src/der/multi.rs:69-78, 294-301). -/
  | several {α : Type} (R : Rules) (tag : Nat) (p : Prog E α) : Prog E (List α)
  /-- The program on other octets, for example on the content of an OCTET STRING; the input is left as it was. -/
  | within {α : Type} (b : Bytes) (p : Prog E α) : Prog E α
  /-- Any error is taken as absence: `parse_ber_optional` (/repo/src/ber/parser.rs:538-555) before the value is wrapped. -/
  | attempt {α : Type} (p : Prog E α) : Prog E (Option α)
  /-- `nom::combinator::opt`. -/
  | opt {α : Type} (p : Prog E α) : Prog E (Option α)
  /-- `nom::branch::alt` of two parsers, /repo/tests/der_parser.rs:525-532, /repo/tests/constructed.rs:244-250. -/
  | orElse {α : Type} (p q : Prog E α) : Prog E α
  /-- `nom::multi::many0`, /repo/tests/constructed.rs:267-272. -/
  | many {α : Type} (p : Prog E α) : Prog E (List α)
  /-- `nom::combinator::complete`, /repo/tests/constructed.rs:270. -/
  | complete {α : Type} (p : Prog E α) : Prog E α
  /-- `nom::combinator::cut`, /repo/src/ber/multi.rs:74. -/
  | cut {α : Type} (p : Prog E α) : Prog E α
  /-- `nom::combinator::all_consuming`, /repo/src/ber/multi.rs:75. -/
  | allConsuming {α : Type} (p : Prog E α) : Prog E α
  /-- `nom::combinator::eof`, /repo/tests/constructed.rs:37, 50. -/
  | eof : Prog E Unit

/-- `nom::combinator::opt`: only an `Error` is absence. -/
def optionally {E α : Type} (p : Bytes → IRes E α) (i : Bytes) : IRes E (Option α) :=
  match p i with
  | .ok r => .ok (r.1, some r.2)
  | .err (.error _) => .ok (i, none)
  | .err e => .err e
  | .panic => .panic
  | .diverge => .diverge

/-- The `match` of `parse_ber_optional`, /repo/src/ber/parser.rs:542-553: every error is absence. -/
def attempting {E α : Type} (p : Bytes → IRes E α) (i : Bytes) : IRes E (Option α) :=
  match p i with
  | .ok r => .ok (r.1, some r.2)
  | .err _ => .ok (i, none)
  | .panic => .panic
  | .diverge => .diverge

/-- `nom::branch::alt` of two parsers. -/
def either {E α : Type} (p q : Bytes → IRes E α) (i : Bytes) : IRes E α :=
  match p i with
  | .err (.error _) => q i
  | r => r

/-- `nom::combinator::eof` for any error type. -/
def atEnd {E : Type} [ParseErr E] (i : Bytes) : IRes E Unit :=
  match i with
  | [] => .ok ([], ())
  | _ :: _ => .err (.error (ParseErr.ofKind i .eof))

/-- The meaning of a program, with the functions cited at the constructors of `Prog`. -/
def Prog.run {E : Type} [ParseErr E] (D : Deps) : {α : Type} → Prog E α → Bytes → IRes E α
  | _, .value x => fun i => x >>? fun a => .ok (i, a)
  | _, .bind p f => fun i => p.run D i >>? fun r => (f r.2).run D r.1
  | _, .prim p => fun i => convertErr (p.run D i)
  | _, .container R f => Verif.container R fun c h => (f h).run D c
  | _, .defined R tag f => definedG R tag fun c h => (f h).run D c
  | _, .explicit R tag f => taggedExplicitG R tag fun c h => (f h).run D c
  | _, .implicit R tag f => taggedImplicitG R tag fun c h d => (f h d).run D c
  | _, .several R tag p => ofV R tag (p.run D)
  | _, .within b p => fun i => p.run D b >>? fun r => .ok (i, r.2)
  | _, .attempt p => attempting (p.run D)
  | _, .opt p => optionally (p.run D)
  | _, .orElse p q => either (p.run D) (q.run D)
  | _, .many p => fun i => many0 (p.run D) (i.length + 1) i
  | _, .complete p => Verif.complete (p.run D)
  | _, .cut p => Verif.cut (p.run D)
  | _, .allConsuming p => Verif.allConsuming (p.run D)
  | _, .eof => atEnd

/-- A value. -/
def Prog.pure {E α : Type} (a : α) : Prog E α := .value (.ok a)

/-- An error made by the user. -/
def Prog.fail {E α : Type} (e : E) : Prog E α := .value (.err (.error e))

/-- `nom::combinator::map`. -/
def Prog.map {E α β : Type} (g : α → β) (p : Prog E α) : Prog E β := .bind p fun a => .pure (g a)

/-- `nom::combinator::map_res` with `BerError`, as `mapResult`. -/
def Prog.mapRes {α β : Type} (g : α → Res β) (p : Prog BerError α) : Prog BerError β :=
  .bind p fun a => .value ((g a).mapErr fun _ => .error (.nomError .mapRes))

/-! ## Programs of the other files -/

/-- The object made by `parse_ber_optional`, /repo/src/ber/parser.rs:545-553. -/
def optionalObject : Option BerObject → BerObject
  | some o => .mk o.header (.optionalSome o)
  | none => .fromObj .optionalNone

/-- `nom::branch::alt` of functions for one type, /repo/tests/der_parser.rs:525-532. -/
def altProg (R : Rules) : Nat → List Nat → Prog BerError BerObject
  | tag, [] => .prim (.typed R tag)
  | tag, t :: ts => .orElse (.prim (.typed R tag)) (altProg R t ts)

mutual
/-- The program for a composed parser; the functions are cited at `Schema.run`. -/
def Schema.prog (R : Rules) : Schema → Prog BerError BerObject
  | .any => .prim (.any R 50)
  | .typed tag => .prim (.typed R tag)
  | .sequenceOf s => .map .fromSeq (.several R 16 (s.prog R))
  | .setOf s => .map .fromSet (.several R 17 (s.prog R))
  | .sequence l => .map .fromSeq (.defined R 16 fun _ => Schema.progAll R l)
  | .set l => .map .fromSet (.defined R 17 fun _ => Schema.progAll R l)
  | .explicit tag s => .explicit R tag fun h => .map (fun o => .mk h (.tagged h.cls tag o)) (s.prog R)
  | .implicit tag type => .implicit R tag fun h d => .map (.mk h) (.prim (.content R type h d))
  | .optional s => .map optionalObject (.attempt (s.prog R))
  | .explicitOptional tag s => .map optionalObject
      (.attempt (.explicit .ber tag fun h => .map (fun o => .mk h (.tagged h.cls h.tag o)) (s.prog R)))
  | .choice tag tags => altProg R tag tags
/-- The program for a list of components, /repo/src/ber/multi.rs:135-142. -/
def Schema.progAll (R : Rules) : List Schema → Prog BerError (List BerObject)
  | [] => .pure []
  | s :: l => .bind (s.prog R) fun o => .map (o :: ·) (Schema.progAll R l)
end

/-- `parse_myobject`, /repo/src/ber/multi.rs:197-206, 421-430; /repo/src/der/multi.rs:198-207, 422-431. -/
def myObjectProg (R : Rules) (tag : Nat) : Prog BerError (Nat × Bytes) :=
  .defined R tag fun _ =>
    .bind (.prim (.uint R .w32)) fun a =>
      .bind (.prim (.typed R Tag.octetString)) fun obj =>
        .value (match obj.asSlice with
          | .ok b => .ok (a, b)
          | .err _ => .panic
          | .panic => .panic
          | .diverge => .diverge)

/-- `parse_attr_type_and_value`, /repo/tests/constructed.rs:251-260. -/
def attrProg : Prog BerError (Bytes × BerObject) :=
  .defined .der Tag.sequence fun _ =>
    .bind (.mapRes (fun x => x.asOid) (.prim (.typed .ber Tag.oid))) fun t =>
      .map (fun v => (t, v)) (altProg .ber Tag.utf8String [Tag.printableString, Tag.ia5String])

/-- `parse_name`, /repo/tests/constructed.rs:261-272. -/
def nameProg : Prog BerError (List (Bytes × BerObject)) :=
  .defined .der Tag.sequence fun _ => .many (.complete (.defined .der Tag.set fun _ => attrProg))

end Verif
