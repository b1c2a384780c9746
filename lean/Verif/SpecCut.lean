import Verif.Spec
/-!
# Specification of truncated input

Where an element can be cut, and what a reader of streams should say there.  Written from the grammar of
X.690 8.1 only.
-/
namespace Verif.Spec

/-- Answer to a truncated element: this many octets are missing for the next step, or (a weakness of the
identifier reader) the tag is called invalid. -/
inductive CutAnswer where
  | need (n : Nat)
  | badTag
deriving DecidableEq, Repr

/-- The answers as errors of a `nom` parser. -/
def CutAnswer.toErr : CutAnswer → NomErr BerError
  | .need n => .incomplete (.size n)
  | .badTag => .error .invalidTag

/-- Proper prefixes of identifier and length octets.  With `strict` the prefix can be completed: the tag
number is within five subsequent octets and the length is below 2^64. -/
inductive HeaderCut (strict : Bool) : Bytes → CutAnswer → Prop
  | empty : HeaderCut strict [] (.need 1)
  | tag (b : UInt8) (ms : Bytes) : b.toNat % 32 = 31 → (∀ m ∈ ms, 128 ≤ m.toNat) →
      (strict = true → ms.length ≤ 4) → HeaderCut strict (b :: ms) .badTag
  | noLength (id : Bytes) (cls : Class) (k : Bool) (num : Nat) : IdentOctets id cls k num → id.length ≤ 6 →
      HeaderCut strict id (.need 1)
  | length (id : Bytes) (cls : Class) (k : Bool) (num : Nat) (b : UInt8) (ds : Bytes) :
      IdentOctets id cls k num → id.length ≤ 6 → 128 < b.toNat → b.toNat < 255 →
      ds.length < b.toNat - 128 →
      (strict = true → base256 ds * 256 ^ (b.toNat - 128 - ds.length) < 2 ^ 64) →
      HeaderCut strict (id ++ b :: ds) (.need (b.toNat - 128 - ds.length))

/-- Proper prefixes of elements: a header is cut, or the contents of an element of definite length, or one
of the elements inside an element of indefinite length (after any number of complete ones).  `n` bounds
the nesting of indefinite lengths; with `strict` a level is left for the element that is cut. -/
inductive Cut (strict : Bool) : Nat → Bytes → CutAnswer → Prop
  | header (n : Nat) (q : Bytes) (a : CutAnswer) : (strict = true → 0 < n) → HeaderCut strict q a →
      Cut strict n q a
  | contents (n l : Nat) (hb c : Bytes) (h : Header) : BerHeader hb h → h.length = .definite l →
      c.length < l → Cut strict (n + 1) (hb ++ c) (.need (l - c.length))
  | inside (n : Nat) (hb : Bytes) (es : List Bytes) (q : Bytes) (h : Header) (a : CutAnswer) :
      BerHeader hb h → h.length = .indefinite → (∀ e ∈ es, Element LooseEoc LooseEoc n e) →
      Cut strict n q a → Cut strict (n + 1) (hb ++ (es.flatten ++ q)) a

end Verif.Spec
