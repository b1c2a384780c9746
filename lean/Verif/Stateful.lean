import Verif.Multi
/-!
# Combinators applied to closures with state

The combinators of /repo/src/ber/multi.rs, /repo/src/der/multi.rs and `parse_ber_optional` take
`FnMut` closures, which may change captured variables.  Here a closure is a function of its captured
state (of any type) and its arguments, which returns an answer and the new state; a combinator
returns its answer and the state left behind.  `Verif/Multi.lean` has the same combinators for
closures without state (`C74_stateless` relates the two).  The `Fn` closures of tagged.rs could have
state only through `Cell` and the like; they are included.
-/
namespace Verif
open Outcome

/-- A closure with captured state `σ` (`FnMut(I) -> IResult<&[u8], T, E>`). -/
abbrev SFn (σ I E T : Type) := σ → I → IRes E T × σ

section
variable {σ E O T : Type} [ParseErr E]

/-- `nom::combinator::cut`. -/
def cutS (f : SFn σ Bytes E T) : SFn σ Bytes E T := fun s i =>
  match f s i with
  | (.err (.error e), s') => (.err (.failure e), s')
  | r => r

/-- `nom::combinator::complete`. -/
def completeS (f : SFn σ Bytes E T) : SFn σ Bytes E T := fun s i =>
  match f s i with
  | (.err (.incomplete _), s') => (.err (.error (ParseErr.ofKind i .complete)), s')
  | r => r

/-- `nom::multi::many0`, on fuel like `many0`. -/
def many0S (f : SFn σ Bytes E T) : Nat → SFn σ Bytes E (List T)
  | 0, s, _ => (.diverge, s)
  | fuel + 1, s, i =>
    match f s i with
    | (.err (.error _), s') => (.ok (i, []), s')
    | (.err e, s') => (.err e, s')
    | (.panic, s') => (.panic, s')
    | (.diverge, s') => (.diverge, s')
    | (.ok r, s') =>
      if r.1.length = i.length then (.err (.error (ParseErr.ofKind i .many0)), s')
      else
        let t := many0S f fuel s' r.1
        (t.1 >>? fun u => .ok (u.1, r.2 :: u.2), t.2)

/-- `nom::combinator::all_consuming`. -/
def allConsumingS (f : SFn σ Bytes E O) : SFn σ Bytes E O := fun s i =>
  let t := f s i
  (t.1 >>? fun r =>
    match r.1 with
    | [] => .ok r
    | _ :: _ => .err (.error (ParseErr.ofKind r.1 .eof)), t.2)

/-- `all_consuming(many0(complete(cut(f))))`, /repo/src/ber/multi.rs:75, 298;
/repo/src/der/multi.rs:76, 299. -/
def ofSubparserS (f : SFn σ Bytes E T) : SFn σ Bytes E (List T) := fun s data =>
  allConsumingS (many0S (completeS (cutS f)) (data.length + 1)) s data

/-- `parse_ber_container` (/repo/src/ber/multi.rs:514-530) and `parse_der_container`
(/repo/src/der/multi.rs:515-534). -/
def containerS (R : Rules) (f : SFn σ (Bytes × Header) E O) : SFn σ Bytes E O := fun s i =>
  match frame (E := E) R i with
  | .ok r =>
    let t := f s (r.2.2, r.2.1)
    (t.1 >>? fun v => .ok (r.1, v.2), t.2)
  | .err e => (.err e, s)
  | .panic => (.panic, s)
  | .diverge => (.diverge, s)

/-- A check made before the closure is called (`?` on its result). -/
def checkedS {α : Type} (c : Header → Outcome (NomErr E) α) (f : SFn σ (Bytes × Header) E O) :
    SFn σ (Bytes × Header) E O := fun s i =>
  match c i.2 with
  | .ok _ => f s i
  | .err e => (.err e, s)
  | .panic => (.panic, s)
  | .diverge => (.diverge, s)

/-- `parse_*_sequence_defined_g` / `parse_*_set_defined_g`:
/repo/src/ber/multi.rs:220-232, 444-455; /repo/src/der/multi.rs:221-233, 445-456. -/
def definedGS (R : Rules) (tag : Nat) (f : SFn σ (Bytes × Header) E O) : SFn σ Bytes E O :=
  containerS R (checkedS (fun hdr => liftResE (hdr.assertTag tag)) f)

/-- `parse_*_sequence_of_v` / `parse_*_set_of_v`: /repo/src/ber/multi.rs:68-77, 293-300;
/repo/src/der/multi.rs:69-78, 294-301. -/
def ofVS (R : Rules) (tag : Nat) (f : SFn σ Bytes E T) : SFn σ Bytes E (List T) :=
  definedGS R tag fun s x => ofSubparserS f s x.1

/-- `parse_*_tagged_explicit_g`, /repo/src/ber/tagged.rs:81-104, /repo/src/der/tagged.rs:82-106. -/
def taggedExplicitGS (R : Rules) (tag : Nat) (f : SFn σ (Bytes × Header) E O) : SFn σ Bytes E O :=
  containerS R (checkedS
    (fun hdr =>
      if hdr.cls = .universal then
        .err (.error (ParseErr.ofBer (.unexpectedClass none hdr.cls)))
      else liftResE (hdr.assertTag tag) >>? fun _ => liftResE hdr.assertConstructed) f)

/-- `parse_*_tagged_implicit_g`, /repo/src/ber/tagged.rs:243-259, /repo/src/der/tagged.rs:245-261
(the closure also receives the constant `MAX_RECURSION`). -/
def taggedImplicitGS (R : Rules) (tag : Nat) (f : SFn σ (Bytes × Header × Nat) E O) :
    SFn σ Bytes E O :=
  containerS R (checkedS (fun hdr => liftResE (hdr.assertTag tag)) fun s x =>
    f s (x.1, x.2, maxRecursion))

end

/-- `nom::combinator::map`. -/
def mapResS {σ I E α β : Type} (g : α → β) (f : SFn σ I E α) : SFn σ I E β := fun s i =>
  let t := f s i
  (t.1 >>? fun r => .ok (r.1, g r.2), t.2)

/-- `parse_*_sequence_defined`, /repo/src/ber/multi.rs:157-165, /repo/src/der/multi.rs:158-166. -/
def sequenceDefinedS {σ : Type} (R : Rules) (f : SFn σ Bytes BerError (List BerObject)) :
    SFn σ Bytes BerError BerObject :=
  mapResS BerObject.fromSeq (definedGS R Tag.sequence fun s x => f s x.1)

/-- `parse_*_set_defined`, /repo/src/ber/multi.rs:380-388, /repo/src/der/multi.rs:381-389. -/
def setDefinedS {σ : Type} (R : Rules) (f : SFn σ Bytes BerError (List BerObject)) :
    SFn σ Bytes BerError BerObject :=
  mapResS BerObject.fromSet (definedGS R Tag.set fun s x => f s x.1)

/-- `parse_ber_optional`, /repo/src/ber/parser.rs:538-555. -/
def parseOptionalS {σ : Type} (f : SFn σ Bytes BerError BerObject) : SFn σ Bytes BerError BerObject :=
  fun s i =>
    match f s i with
    | (.ok r, s') => (.ok (r.1, .mk r.2.header (.optionalSome r.2)), s')
    | (.err _, s') => (.ok (i, .fromObj .optionalNone), s')
    | (.panic, s') => (.panic, s')
    | (.diverge, s') => (.diverge, s')

end Verif
