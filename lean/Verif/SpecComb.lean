import Verif.SpecFail
import Verif.Multi
/-!
# Specification of the refusals of the container combinators

What `parse_*_container` and everything built on it should answer when the input does not start with an
element, and what `parse_*_sequence_of` and `parse_*_set_of` should answer for the contents octets.
-/
namespace Verif.Spec

/-- Why no element is delimited: octets are missing (this many), the octets are wrong, or the input ends in
contents octets of known length (the octets after the header are given). -/
inductive Refusal where
  | need (n : Nat)
  | bad (e : BerError)
  | ends (after : Bytes)
deriving DecidableEq, Repr

/-- The refusals as errors of a `nom` parser. -/
def Refusal.toErr {E : Type} [ParseErr E] : Refusal → NomErr E
  | .need n => .incomplete (.size n)
  | .bad e => .error (ParseErr.ofBer e)
  | .ends i => .error (ParseErr.ofKind i .eof)

/-- Identifier and length octets under the given rules. -/
def HeaderBy : Rules → Bytes → Header → Prop
  | .ber => BerHeader
  | .der => DerHeader

/-- What is wrong with the length octet `80`. -/
def indefiniteBy : Rules → Bool → Option BerError
  | .ber => berIndefinite
  | .der => derIndefinite

/-- Inputs that do not start with an element: the header is cut or rejected; the contents of known length are
cut; or the length is indefinite and the elements inside are cut or rejected. -/
inductive Unframed (R : Rules) : Bytes → Refusal → Prop
  | cut (i : Bytes) (n : Nat) : HeaderCut false i (.need n) → Unframed R i (.need n)
  | header (i : Bytes) (e : BerError) : HeaderFails (indefiniteBy R) i e → Unframed R i (.bad e)
  | contents (hb c : Bytes) (h : Header) (l : Nat) : HeaderBy R hb h → h.length = .definite l →
      c.length < l → Unframed R (hb ++ c) (.ends c)
  | insideCut (hb rest : Bytes) (h : Header) (n : Nat) : R = .ber → BerHeader hb h →
      h.length = .indefinite → Cut false 50 (hb ++ rest) (.need n) → Unframed R (hb ++ rest) (.need n)
  | inside (hb rest : Bytes) (h : Header) (e : BerError) : R = .ber → BerHeader hb h →
      h.length = .indefinite → FrameFails 50 (hb ++ rest) e → Unframed R (hb ++ rest) (.bad e)

/-- The items read one after the other from contents octets, each from at least one octet, and the octets
left. -/
inductive Items {E T : Type} (f : Bytes → IRes E T) : Bytes → List T → Bytes → Prop
  | nil (q : Bytes) : Items f q [] q
  | cons (i rem : Bytes) (v : T) (vs : List T) (q : Bytes) : f i = .ok (rem, v) →
      rem.length < i.length → Items f rem vs q → Items f i (v :: vs) q

/-- `f` reads no item from `q`. -/
def Stuck {E T : Type} (f : Bytes → IRes E T) (q : Bytes) : Prop :=
  ∀ rem v, f q = .ok (rem, v) → rem.length = q.length

/-- The answer once the items `vs` were read and `f` reads no item from `q`: all items at the end of the
contents; an error of `f` becomes a failure, also at the end of the contents. -/
def itemsAnswer {E T : Type} [ParseErr E] (f : Bytes → IRes E T) (vs : List T) (q : Bytes) :
    Outcome (NomErr E) (List T) :=
  match f q with
  | .err (.incomplete _) => if q = [] then .ok vs else .err (.error (ParseErr.ofKind q .eof))
  | .err (.error e) => .err (.failure e)
  | .err (.failure e) => .err (.failure e)
  | .ok _ => .err (.error (ParseErr.ofKind q .many0))
  | .panic => .panic
  | .diverge => .diverge

/-! ## The functions for contents -/

/-- The contents octets `c` at the front of an input, for a length (and form `k`) found in a header, with `d`
levels, and what remains after them. -/
inductive Delimited (k : Bool) : Nat → Length → Bytes → Bytes → Bytes → Prop
  | definite (d : Nat) (c rem : Bytes) : Delimited k (d + 1) (.definite c.length) (c ++ rem) c rem
  | indefinite (n : Nat) (es : List Bytes) (t rem : Bytes) : k = true →
      (∀ e ∈ es, Element LooseEoc LooseEoc (n + 1) e) → LooseEoc t →
      Delimited k (n + 2) .indefinite (es.flatten ++ t ++ rem)
        ((es.flatten ++ t).take ((es.flatten ++ t).length - 2)) rem

/-- Contents of type `tag` that a BER reader rejects: longer than the limit; no level left; an indefinite length
in primitive form; elements inside an indefinite length that cannot be delimited; contents octets that do not
fit the type. -/
inductive ContentsRejected (D : Deps) (tag : Nat) (k : Bool) : Nat → Length → Bytes → BerError → Prop
  | size (d l : Nat) (i : Bytes) : 2 ^ 32 ≤ l → ContentsRejected D tag k d (.definite l) i .invalidLength
  | depth (l : Nat) (i : Bytes) : l < 2 ^ 32 → l ≤ i.length →
      ContentsRejected D tag k 0 (.definite l) i .berMaxDepth
  | depthIndefinite (i : Bytes) : ContentsRejected D tag k 0 .indefinite i .berMaxDepth
  | primitive (d : Nat) (i : Bytes) : k = false →
      ContentsRejected D tag k (d + 1) .indefinite i .constructExpected
  | inside (d : Nat) (es : List Bytes) (q : Bytes) (e : BerError) : k = true →
      (∀ x ∈ es, Element LooseEoc LooseEoc d x) → FrameFails d q e →
      ContentsRejected D tag k (d + 1) .indefinite (es.flatten ++ q) e
  | contents (d : Nat) (L : Length) (i c rem : Bytes) (e : BerError) : (∀ l, L = .definite l → l < 2 ^ 32) →
      Delimited k d L i c rem → ContentFails D d (Header.new .universal k tag L) c e →
      ContentsRejected D tag k d L i e

/-- Contents for which a BER reader asks for `n` octets: for a known length the whole length, although some of
the octets may be there; for an indefinite length what is missing of the element that is cut. -/
inductive ContentsNeeds (k : Bool) : Nat → Length → Bytes → Nat → Prop
  | definite (d l : Nat) (i : Bytes) : l < 2 ^ 32 → i.length < l → ContentsNeeds k d (.definite l) i l
  | inside (d : Nat) (es : List Bytes) (q : Bytes) (n : Nat) : k = true →
      (∀ x ∈ es, Element LooseEoc LooseEoc d x) → Cut false d q (.need n) →
      ContentsNeeds k (d + 1) .indefinite (es.flatten ++ q) n

end Verif.Spec
