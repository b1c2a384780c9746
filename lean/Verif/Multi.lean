import Verif.Der
/-!
# Containers, SEQUENCE/SET (OF) and tagged objects

Model of /repo/src/ber/multi.rs, /repo/src/der/multi.rs, /repo/src/ber/tagged.rs,
/repo/src/der/tagged.rs and the optional parsers of /repo/src/ber/parser.rs.

The BER and DER files mirror each other; a `Rules` argument selects the version.  User closures
are arbitrary functions into `Outcome`, without state (`Verif/Stateful.lean` has the versions for
`FnMut` closures with state).
-/
namespace Verif
open Outcome

/-- Which of the two mirrored files is meant. -/
inductive Rules where
  | ber | der
deriving DecidableEq, Repr

section
variable {E O T : Type} [ParseErr E]

/-- `nom::bytes::complete::take(n)`: `Error(Eof)` when short.
/repo/src/ber/multi.rs:2, 522; /repo/src/der/multi.rs:4, 524. -/
def takeComplete (n : Nat) (i : Bytes) : IRes E Bytes :=
  if i.length < n then .err (.error (ParseErr.ofKind i .eof))
  else .ok (i.drop n, i.take n)

/-- `.map_err(Err::convert)`. -/
def convertErr {α : Type} (x : Outcome (NomErr BerError) α) : Outcome (NomErr E) α :=
  x.mapErr (NomErr.map ParseErr.ofBer)

/-- `.map_err(|e| Err::Error(e.into()))` on a `Result<_, BerError>`. -/
def liftResE {α : Type} (x : Res α) : Outcome (NomErr E) α :=
  x.mapErr fun e => .error (ParseErr.ofBer e)

/-- Header and content slice read by `parse_ber_container` (/repo/src/ber/multi.rs:520-526) and
`parse_der_container` (/repo/src/der/multi.rs:521-530). -/
def frame (R : Rules) (i : Bytes) : IRes E (Header × Bytes) :=
  match R with
  | .ber =>
    convertErr (headerFromBer i) >>? fun r =>
      (match r.2.length with
       | .definite len => takeComplete len r.1
       | .indefinite => convertErr (getObjectContent maxRecursion r.2 r.1)) >>? fun s =>
        .ok (s.1, (r.2, s.2))
  | .der =>
    convertErr (headerFromDer i) >>? fun r =>
      (match r.2.length with
       | .definite len => takeComplete len r.1
       | .indefinite =>
         .err (.error (ParseErr.ofBer (.derConstraintFailed .indefiniteLength)))) >>? fun s =>
        .ok (s.1, (r.2, s.2))

/-- `parse_ber_container` (/repo/src/ber/multi.rs:514-530) and `parse_der_container`
(/repo/src/der/multi.rs:515-534). -/
def container (R : Rules) (f : Bytes → Header → IRes E O) (i : Bytes) : IRes E O :=
  frame R i >>? fun s => f s.2.2 s.2.1 >>? fun v => .ok (s.1, v.2)

/-- `parse_*_sequence_defined_g` / `parse_*_set_defined_g` with `tag` = SEQUENCE / SET:
/repo/src/ber/multi.rs:220-232, 444-455; /repo/src/der/multi.rs:221-233, 445-456. -/
def definedG (R : Rules) (tag : Nat) (f : Bytes → Header → IRes E O) : Bytes → IRes E O :=
  container R fun i hdr => liftResE (hdr.assertTag tag) >>? fun _ => f i hdr

/-- `nom::combinator::complete`: `Incomplete` becomes `Error(Complete)`. -/
def complete (p : Bytes → IRes E O) (i : Bytes) : IRes E O :=
  match p i with
  | .err (.incomplete _) => .err (.error (ParseErr.ofKind i .complete))
  | r => r

/-- `nom::multi::many0`: stops at the first `Error`; a success without progress is
`Error(Many0)`.  Runs on fuel; callers give `i.length + 1`, enough for any parser that does not
return a longer remainder than its input. -/
def many0 (p : Bytes → IRes E T) : Nat → Bytes → IRes E (List T)
  | 0, _ => .diverge
  | fuel + 1, i =>
    match p i with
    | .err (.error _) => .ok (i, [])
    | .err e => .err e
    | .panic => .panic
    | .diverge => .diverge
    | .ok r =>
      if r.1.length = i.length then .err (.error (ParseErr.ofKind i .many0))
      else many0 p fuel r.1 >>? fun s => .ok (s.1, r.2 :: s.2)

/-- `nom::combinator::all_consuming`. -/
def allConsuming (p : Bytes → IRes E O) (i : Bytes) : IRes E O :=
  p i >>? fun r =>
    match r.1 with
    | [] => .ok r
    | _ :: _ => .err (.error (ParseErr.ofKind r.1 .eof))

/-- `all_consuming(many0(complete(cut(f))))`, /repo/src/ber/multi.rs:75, 298;
/repo/src/der/multi.rs:76, 299. -/
def ofSubparser (f : Bytes → IRes E T) (data : Bytes) : IRes E (List T) :=
  allConsuming (many0 (complete (cut f)) (data.length + 1)) data

/-- `parse_*_sequence_of_v` / `parse_*_set_of_v`: /repo/src/ber/multi.rs:68-77, 293-300;
/repo/src/der/multi.rs:69-78, 294-301. -/
def ofV (R : Rules) (tag : Nat) (f : Bytes → IRes E T) : Bytes → IRes E (List T) :=
  definedG R tag fun data _ => ofSubparser f data

end

/-- `nom::combinator::map`. -/
def mapRes {E α β : Type} (g : α → β) (p : Bytes → IRes E α) (i : Bytes) : IRes E β :=
  p i >>? fun r => .ok (r.1, g r.2)

/-- `parse_*_sequence_of`, /repo/src/ber/multi.rs:34-39, /repo/src/der/multi.rs:35-40. -/
def sequenceOf (R : Rules) (f : Bytes → IRes BerError BerObject) : Bytes → IRes BerError BerObject :=
  mapRes BerObject.fromSeq (ofV R Tag.sequence f)

/-- `parse_*_set_of`, /repo/src/ber/multi.rs:259-264, /repo/src/der/multi.rs:260-265. -/
def setOf (R : Rules) (f : Bytes → IRes BerError BerObject) : Bytes → IRes BerError BerObject :=
  mapRes BerObject.fromSet (ofV R Tag.set f)

/-- `parse_*_sequence_defined`, /repo/src/ber/multi.rs:157-165, /repo/src/der/multi.rs:158-166. -/
def sequenceDefined (R : Rules) (f : Bytes → IRes BerError (List BerObject)) :
    Bytes → IRes BerError BerObject :=
  mapRes BerObject.fromSeq (definedG R Tag.sequence fun data _ => f data)

/-- `parse_*_set_defined`, /repo/src/ber/multi.rs:380-388, /repo/src/der/multi.rs:381-389. -/
def setDefined (R : Rules) (f : Bytes → IRes BerError (List BerObject)) :
    Bytes → IRes BerError BerObject :=
  mapRes BerObject.fromSet (definedG R Tag.set fun data _ => f data)

/-- `parse_ber_slice` (/repo/src/ber/parser.rs:595-601), `parse_der_slice`
(/repo/src/der/parser.rs:403-409). -/
def parseSlice (R : Rules) (tag : Nat) : Bytes → IRes BerError Bytes :=
  container R fun content hdr => liftRes (hdr.assertTag tag) >>? fun _ => .ok ([], content)

/-! ## Tagged objects -/

section
variable {E O : Type} [ParseErr E]

/-- `parse_*_tagged_explicit_g`, /repo/src/ber/tagged.rs:81-104, /repo/src/der/tagged.rs:82-106. -/
def taggedExplicitG (R : Rules) (tag : Nat) (f : Bytes → Header → IRes E O) : Bytes → IRes E O :=
  container R fun i hdr =>
    if hdr.cls = .universal then
      .err (.error (ParseErr.ofBer (.unexpectedClass none hdr.cls)))
    else
      liftResE (hdr.assertTag tag) >>? fun _ =>
        liftResE hdr.assertConstructed >>? fun _ => f i hdr

/-- `parse_*_tagged_implicit_g`, /repo/src/ber/tagged.rs:243-259, /repo/src/der/tagged.rs:245-261. -/
def taggedImplicitG (R : Rules) (tag : Nat) (f : Bytes → Header → Nat → IRes E O) :
    Bytes → IRes E O :=
  container R fun i hdr =>
    liftResE (hdr.assertTag tag) >>? fun _ => f i hdr maxRecursion

end

/-- `parse_*_tagged_explicit`, /repo/src/ber/tagged.rs:38-53, /repo/src/der/tagged.rs:39-54. -/
def taggedExplicit (R : Rules) (tag : Nat) (f : Bytes → IRes BerError BerObject) :
    Bytes → IRes BerError BerObject :=
  taggedExplicitG R tag fun content hdr =>
    f content >>? fun r => .ok (r.1, .mk hdr (.tagged hdr.cls tag r.2))

/-- `parse_*_tagged_implicit`, /repo/src/ber/tagged.rs:170-182, /repo/src/der/tagged.rs:172-184. -/
def taggedImplicit (R : Rules) (tag : Nat) (f : Bytes → Header → Nat → IRes BerError Content) :
    Bytes → IRes BerError BerObject :=
  taggedImplicitG R tag fun i hdr depth =>
    f i hdr depth >>? fun r => .ok (r.1, .mk hdr r.2)

/-- `parse_ber_implicit` (/repo/src/ber/parser.rs:507-513) and `parse_der_implicit`
(/repo/src/der/parser.rs:359-365), which both use the BER version. -/
def parseImplicit (tag : Nat) (f : Bytes → Header → Nat → IRes BerError Content) :
    Bytes → IRes BerError BerObject :=
  taggedImplicit .ber tag f

/-- `parse_ber_optional`, /repo/src/ber/parser.rs:538-555. -/
def parseOptional (f : Bytes → IRes BerError BerObject) (i : Bytes) : IRes BerError BerObject :=
  match f i with
  | .ok r => .ok (r.1, .mk r.2.header (.optionalSome r.2))
  | .err _ => .ok (i, .fromObj .optionalNone)
  | .panic => .panic
  | .diverge => .diverge

/-- `parse_ber_explicit_optional` (/repo/src/ber/parser.rs:455-465) and
`parse_der_explicit_optional` (/repo/src/der/parser.rs:312-317), which is the same function. -/
def parseExplicitOptional (tag : Nat) (f : Bytes → IRes BerError BerObject) :
    Bytes → IRes BerError BerObject :=
  parseOptional (taggedExplicitG .ber tag fun content hdr =>
    f content >>? fun r => .ok (r.1, .mk hdr (.tagged hdr.cls hdr.tag r.2)))

end Verif
