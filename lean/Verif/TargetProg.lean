import Verif.Target
/-!
# Programs on targets with other machine words

The combinators and the programs of `Verif/Lang.lean` with the functions that read a header as
parameters, as in `Verif/Target.lean`.
-/
namespace Verif
open Outcome

section
variable (hb hd : Bytes → IRes BerError Header)

/-- `Any::from_der` (asn1-rs), as `anyFromDer`. -/
def tAnyFromDer (i : Bytes) : IRes BerError Any :=
  hd i >>? fun r =>
    liftRes r.2.length.definite? >>? fun l =>
      takeStreaming l r.1 >>? fun s => .ok (s.1, { header := r.2, data := s.2 })

/-- `parse_ber_u32`, `parse_ber_u64`, /repo/src/ber/parser.rs:580-591. -/
def tParseBerUint (n : Nat) (i : Bytes) : IRes BerError Nat :=
  tAnyFromBer hb i >>? fun r => liftRes (uintFromAny n r.2) >>? fun v => .ok (r.1, v)

/-- `parse_ber_i32`, `parse_ber_i64`, /repo/src/ber/parser.rs:562-573. -/
def tParseBerInt (n : Nat) (i : Bytes) : IRes BerError Int :=
  tAnyFromBer hb i >>? fun r => liftRes (intFromAny n r.2) >>? fun v => .ok (r.1, v)

/-- `parse_der_u32`, `parse_der_u64`, /repo/src/der/parser.rs:389-399. -/
def tParseDerUint (n : Nat) (i : Bytes) : IRes BerError Nat :=
  tAnyFromDer hd i >>? fun r =>
    liftRes r.2.header.assertPrimitive >>? fun _ =>
      liftRes (derIntConstraints r.2.data) >>? fun _ =>
        liftRes (uintFromAny n r.2) >>? fun v => .ok (r.1, v)

/-- `parse_der_i32`, `parse_der_i64`, /repo/src/der/parser.rs:372-383. -/
def tParseDerInt (n : Nat) (i : Bytes) : IRes BerError Int :=
  tAnyFromDer hd i >>? fun r =>
    liftRes r.2.header.assertPrimitive >>? fun _ =>
      liftRes (derIntConstraints r.2.data) >>? fun _ =>
        liftRes (intFromAny n r.2) >>? fun v => .ok (r.1, v)

section
variable {E O : Type} [ParseErr E]

/-- Header and content of `parse_ber_container` (/repo/src/ber/multi.rs:520-526) and
`parse_der_container` (/repo/src/der/multi.rs:521-530), as `frame`. -/
def tFrame (R : Rules) (i : Bytes) : IRes E (Header × Bytes) :=
  match R with
  | .ber =>
    convertErr (hb i) >>? fun r =>
      (match r.2.length with
       | .definite len => takeComplete len r.1
       | .indefinite => convertErr (tGetObjectContent hb maxRecursion r.2 r.1)) >>? fun s =>
        .ok (s.1, (r.2, s.2))
  | .der =>
    convertErr (hd i) >>? fun r =>
      (match r.2.length with
       | .definite len => takeComplete len r.1
       | .indefinite =>
         .err (.error (ParseErr.ofBer (.derConstraintFailed .indefiniteLength)))) >>? fun s =>
        .ok (s.1, (r.2, s.2))

/-- `parse_ber_container` (/repo/src/ber/multi.rs:514-530), `parse_der_container`
(/repo/src/der/multi.rs:515-534). -/
def tContainer (R : Rules) (f : Bytes → Header → IRes E O) (i : Bytes) : IRes E O :=
  tFrame hb hd R i >>? fun s => f s.2.2 s.2.1 >>? fun v => .ok (s.1, v.2)

/-- `parse_*_sequence_defined_g`, `parse_*_set_defined_g`, /repo/src/ber/multi.rs:220-232, 444-455;
/repo/src/der/multi.rs:221-233, 445-456. -/
def tDefinedG (R : Rules) (tag : Nat) (f : Bytes → Header → IRes E O) : Bytes → IRes E O :=
  tContainer hb hd R fun i hdr => liftResE (hdr.assertTag tag) >>? fun _ => f i hdr

/-- `parse_*_sequence_of_v`, `parse_*_set_of_v`, /repo/src/ber/multi.rs:68-77, 293-300;
/repo/src/der/multi.rs:69-78, 294-301. -/
def tOfV (R : Rules) (tag : Nat) (f : Bytes → IRes E O) : Bytes → IRes E (List O) :=
  tDefinedG hb hd R tag fun data _ => ofSubparser f data

/-- `parse_*_tagged_explicit_g`, /repo/src/ber/tagged.rs:81-104, /repo/src/der/tagged.rs:82-106. -/
def tTaggedExplicitG (R : Rules) (tag : Nat) (f : Bytes → Header → IRes E O) : Bytes → IRes E O :=
  tContainer hb hd R fun i hdr =>
    if hdr.cls = .universal then
      .err (.error (ParseErr.ofBer (.unexpectedClass none hdr.cls)))
    else
      liftResE (hdr.assertTag tag) >>? fun _ =>
        liftResE hdr.assertConstructed >>? fun _ => f i hdr

/-- `parse_*_tagged_implicit_g`, /repo/src/ber/tagged.rs:243-259, /repo/src/der/tagged.rs:245-261. -/
def tTaggedImplicitG (R : Rules) (tag : Nat) (f : Bytes → Header → Nat → IRes E O) :
    Bytes → IRes E O :=
  tContainer hb hd R fun i hdr =>
    liftResE (hdr.assertTag tag) >>? fun _ => f i hdr maxRecursion

end

/-- `parse_ber_slice` (/repo/src/ber/parser.rs:595-601), `parse_der_slice`
(/repo/src/der/parser.rs:403-409). -/
def tParseSlice (R : Rules) (tag : Nat) : Bytes → IRes BerError Bytes :=
  tContainer hb hd R fun content hdr => liftRes (hdr.assertTag tag) >>? fun _ => .ok ([], content)

/-- The functions of the library without a closure, as `Prim.run`. -/
def Prim.runT (D : Deps) : {α : Type} → Prim α → Bytes → IRes BerError α
  | _, .any .ber depth => tParseBerRecursive hb D depth
  | _, .any .der depth => tParseDerRecursive hb hd D depth
  | _, .typed .ber tag => tParseBerWithTag hb D tag
  | _, .typed .der tag => tParseDerWithTag hb hd D tag
  | _, .uint .ber width => tParseBerUint hb width.octets
  | _, .uint .der width => tParseDerUint hd width.octets
  | _, .int .ber width => tParseBerInt hb width.octets
  | _, .int .der width => tParseDerInt hd width.octets
  | _, .slice R tag => tParseSlice hb hd R tag
  | _, .rawAny => tAnyFromBer hb
  | _, .header .ber => hb
  | _, .header .der => hd
  | _, .content .ber tag hdr depth => fun i => tReadElementContentAs hb D i tag hdr.length hdr.constructed depth
  | _, .content .der tag hdr depth => fun i => tDerReadElementContentAs hb D i tag hdr.length hdr.constructed depth
  | _, .element hdr => fun i => tDerReadElementContentRecursive hb D i hdr maxRecursion

/-- The meaning of a program, as `Prog.run`. -/
def Prog.runT {E : Type} [ParseErr E] (D : Deps) : {α : Type} → Prog E α → Bytes → IRes E α
  | _, .value x => fun i => x >>? fun a => .ok (i, a)
  | _, .bind p f => fun i => p.runT D i >>? fun r => (f r.2).runT D r.1
  | _, .prim p => fun i => convertErr (p.runT hb hd D i)
  | _, .container R f => tContainer hb hd R fun c h => (f h).runT D c
  | _, .defined R tag f => tDefinedG hb hd R tag fun c h => (f h).runT D c
  | _, .explicit R tag f => tTaggedExplicitG hb hd R tag fun c h => (f h).runT D c
  | _, .implicit R tag f => tTaggedImplicitG hb hd R tag fun c h d => (f h d).runT D c
  | _, .several R tag p => tOfV hb hd R tag (p.runT D)
  | _, .within b p => fun i => p.runT D b >>? fun r => .ok (i, r.2)
  | _, .attempt p => attempting (p.runT D)
  | _, .opt p => optionally (p.runT D)
  | _, .orElse p q => either (p.runT D) (q.runT D)
  | _, .many p => fun i => many0 (p.runT D) (i.length + 1) i
  | _, .complete p => Verif.complete (p.runT D)
  | _, .cut p => Verif.cut (p.runT D)
  | _, .allConsuming p => Verif.allConsuming (p.runT D)
  | _, .eof => atEnd

end

/-- A program on a target with `w` bits. -/
def Prog.runOn (w : Nat) {E : Type} [ParseErr E] (D : Deps) {α : Type} (p : Prog E α) : Bytes → IRes E α :=
  p.runT (headerFromBerOn w) (headerFromDerOn w) D

end Verif
